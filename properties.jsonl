{"id": "C01", "title": "Simple scheduler: no token is handed out twice, and counters agree with history", "statement": "After any sequence of issue/fix/rollback/pickle-reload calls, the scheduler's public counters equal what the call history says: 'fixed' is the number of tokens fixed, 'issued' is that plus the number of tokens handed out and neither fixed nor rolled back. issue() never returns a token which is currently outstanding or has been fixed.", "quantifier": "every finite sequence of issue, fix, rollback and pickle/unpickle operations", "why_tests_cant": "the claim is about all histories, including arbitrarily many crashes (rollback) interleaved with out-of-order fixes", "anchors": ["gomill/competition_schedulers.py: Simple_scheduler"]}
{"id": "C02", "title": "Simple scheduler: reissue after rollback is complete and in order", "statement": "After rollback(), the next issue() calls return exactly the tokens that were issued but not fixed, each once, in increasing order, and only then fresh tokens; every token below the next new one is always fixed, outstanding or waiting to be reissued.", "quantifier": "every reachable scheduler state", "why_tests_cant": "depends on every pattern of out-of-order fixes before an unclean shutdown", "anchors": ["gomill/competition_schedulers.py: Simple_scheduler.rollback, Simple_scheduler.issue"]}
{"id": "C03", "title": "Group scheduler: fairness and limits", "statement": "issue() returns (None, None) exactly when every group is at its limit; otherwise it picks, among groups below their limit, one with the fewest issued games, ties broken by the order given to set_groups. A group's issued count never rises above its limit by issue(). set_groups keeps the bookkeeping of groups it already knows.", "quantifier": "every group scheduler state, every list of groups and limits", "why_tests_cant": "the choice must be right for every assignment of counts and limits", "anchors": ["gomill/competition_schedulers.py: Group_scheduler"]}
{"id": "C04", "title": "Group scheduler: all_fixed", "statement": "all_fixed() is true only if all groups have limits, and each group has as many fixed tokens as its limit.", "quantifier": "every group scheduler state with any mix of limited and unlimited groups", "why_tests_cant": "docstring claim over all states; (the code violates it for unlimited groups: see DESIGN.md)", "anchors": ["gomill/competition_schedulers.py: Group_scheduler.all_fixed"]}
{"id": "C05", "title": "Board: every reachable position is legal", "statement": "After any sequence of play() and apply_setup() calls on a new board, every group of stones on the board has at least one liberty.", "quantifier": "every board size >= 2 and every finite sequence of calls", "why_tests_cant": "quantifies over all game histories and sizes", "anchors": ["gomill/boards.py: Board.play, Board.apply_setup, Board._find_surrounded_groups"]}
{"id": "C06", "title": "Board: play implements the rules of go", "statement": "On a legal position, play(row, col, colour) at an empty point puts a stone there and then removes exactly the opponent stones whose groups have no liberties; if there are none, it removes exactly the played stone's group if that has no liberties. Nothing else changes. It never raises for an on-board empty point. If the point is off the board it raises IndexError, if occupied ValueError, and in both cases the board is unchanged.", "quantifier": "every legal position of every size, every point and colour", "why_tests_cant": "the set of positions is unbounded; the code uses shortcuts (looking only at the list of surrounded groups) whose soundness needs an argument about legality", "anchors": ["gomill/boards.py: Board.play"]}
{"id": "C07", "title": "Board: simple ko point", "statement": "play() returns a point exactly when the move captured exactly one stone and the played stone is itself a one-stone group whose only liberty is the captured point; the point returned is the captured one. Immediately replaying there by the opponent would recreate the previous position.", "quantifier": "every legal position of every size, every legal move", "why_tests_cant": "needs all capture configurations", "anchors": ["gomill/boards.py: Board.play"]}
{"id": "C08", "title": "Board: is_empty agrees with the stones", "statement": "is_empty() is true exactly when no point is occupied, in every reachable state (including after a move which removes the last stones by self-capture).", "quantifier": "every board size >= 2 and every sequence of play/apply_setup calls", "why_tests_cant": "the flag is maintained incrementally; correctness for whole-board self capture needs connectivity of the grid for every size", "anchors": ["gomill/boards.py: Board.is_empty, Board.play, Board.apply_setup"]}
{"id": "C09", "title": "Board: apply_setup", "statement": "apply_setup returns True exactly when the position as specified is legal; the resulting position is the specified one with all liberty-less groups removed, and is legal. If any coordinate is out of range it raises IndexError and changes nothing.", "quantifier": "every position, all lists of points", "why_tests_cant": "quantifies over all positions and setup lists", "anchors": ["gomill/boards.py: Board.apply_setup"]}
{"id": "C10", "title": "Board: area score", "statement": "area_score() equals (points that are black or are empty and can reach black through empty points) minus the same for white. Swapping the colours negates it.", "quantifier": "every position of every size", "why_tests_cant": "region flood fill must be right on every shape", "anchors": ["gomill/boards.py: Board.area_score, Board._make_empty_region"]}
{"id": "C11", "title": "Board: flood fill finds exactly the connected component", "statement": "The group found from a stone is the set of all points connected to it by stones of its colour, whichever order the work set is popped in, and it is reported surrounded exactly if no such point has an empty neighbour.", "quantifier": "every position, start point and every pop order", "why_tests_cant": "Python set.pop order is arbitrary; the result must be independent of it", "anchors": ["gomill/boards.py: Board._make_group, Board._make_empty_region"]}
{"id": "C12", "title": "ASCII board diagrams round-trip", "statement": "interpret_diagram(render_board(b), b.side) gives a board with the same position as b.", "quantifier": "every legal position of every size from 2 to 25", "why_tests_cant": "quantifies over all positions; the interpreter plays stones one at a time so it relies on no intermediate position having captures", "anchors": ["gomill/ascii_boards.py: render_board, interpret_diagram"]}
{"id": "C13", "title": "Vertex notation round-trip", "statement": "move_from_vertex(format_vertex(m), n) == m for every point m on an n x n board, and for pass.", "quantifier": "every board size 1..25 and every point", "why_tests_cant": "finite but the letter skipping and size offsets are error prone; and stated uniformly in the size", "anchors": ["gomill/common.py: format_vertex, move_from_vertex"]}
{"id": "C14", "title": "Vertex interpretation is total and in range", "statement": "For every string, move_from_vertex(s, n) either raises ValueError or returns None or a point on the n x n board; two different points never have the same vertex.", "quantifier": "every string and board size", "why_tests_cant": "all strings", "anchors": ["gomill/common.py: move_from_vertex"]}
{"id": "C15", "title": "Handicap layouts", "statement": "For every board size and stone count accepted by handicap_points, the result has exactly that many distinct points, all on the board; smaller layouts behave as documented (max_* bounds are what is accepted; ValueError exactly otherwise).", "quantifier": "every board size and number of stones", "why_tests_cant": "all sizes", "anchors": ["gomill/handicap_layout.py: handicap_points, max_free_handicap_for_board_size, max_fixed_handicap_for_board_size"]}
{"id": "C16", "title": "SGF game tree serialise/parse round-trip", "statement": "Parsing the serialisation of a coarse game tree gives back the same tree: the same nodes in the same order, each with the same property identifiers mapped to the same raw value lists, for every wrap width including no wrapping.", "quantifier": "every game tree whose identifiers and values are valid, of any size and depth, and every wrap width", "why_tests_cant": "unbounded trees, arbitrary byte strings, and line-breaking at arbitrary positions", "anchors": ["gomill/sgf_grammar.py: serialise_game_tree, parse_sgf_game, block_format"]}
{"id": "C17", "title": "SGF parser is total", "statement": "parse_sgf_game on any byte string either returns a game tree or raises ValueError; it never fails with an assertion, index or attribute error, and always terminates.", "quantifier": "every byte string", "why_tests_cant": "all inputs", "anchors": ["gomill/sgf_grammar.py: tokenise, parse_sgf_game"]}
{"id": "C18", "title": "SGF collections", "statement": "parse_sgf_collection of a concatenation of serialised games (possibly with junk between them that contains no game start) returns exactly those games in order.", "quantifier": "every list of valid game trees", "why_tests_cant": "unbounded lists and arbitrary junk", "anchors": ["gomill/sgf_grammar.py: parse_sgf_collection"]}
{"id": "C19", "title": "SGF text escaping round-trip", "statement": "text_value(escape_text(s)) equals s up to the documented whitespace conversion, and the escaped form is always a valid property value.", "quantifier": "every byte string", "why_tests_cant": "all strings, including runs of backslashes and line breaks", "anchors": ["gomill/sgf_grammar.py: escape_text, text_value, is_valid_property_value"]}
{"id": "C20", "title": "SGF simpletext escaping round-trip", "statement": "simpletext_value(escape_text(s)) equals s with line breaks and other whitespace converted to spaces.", "quantifier": "every byte string", "why_tests_cant": "all strings", "anchors": ["gomill/sgf_grammar.py: escape_text, simpletext_value"]}
{"id": "C21", "title": "SGF compose round-trip", "statement": "parse_compose(compose(a, b)) == (a, b) for escaped first parts, so AP, FG, LB and AR/LN values survive a set/get round trip.", "quantifier": "every pair of strings", "why_tests_cant": "all strings with colons and backslashes", "anchors": ["gomill/sgf_grammar.py: compose, parse_compose", "gomill/sgf_properties.py: serialise_AP, interpret_AP"]}
{"id": "C22", "title": "SGF go points round-trip", "statement": "interpret_go_point(serialise_go_point(m, n), n) == m for every point and pass for board sizes up to 25; a point list written by serialise_point_list is read back as the same set; compressed rectangles are read as exactly the points of the rectangle.", "quantifier": "every board size 1..25, every point, every set of points", "why_tests_cant": "all sets of points", "anchors": ["gomill/sgf_properties.py: interpret_go_point, serialise_go_point, interpret_point_list, serialise_point_list"]}
{"id": "C23", "title": "SGF main sequence", "statement": "The main sequence of a parsed game is the path that always takes the first variation, and iterating it gives the same nodes whether or not the tree has been expanded.", "quantifier": "every game tree", "why_tests_cant": "all trees", "anchors": ["gomill/sgf_grammar.py: main_sequence_iter, make_tree", "gomill/sgf.py: Sgf_game.main_sequence_iter, _Unexpanded_root_tree_node"]}
{"id": "C24", "title": "SGF tree conversion round-trip", "statement": "Expanding a coarse game tree to nodes and converting back gives an equivalent game tree: the same set of root-to-leaf node sequences in the same order.", "quantifier": "every game tree", "why_tests_cant": "all trees", "anchors": ["gomill/sgf_grammar.py: make_tree, make_coarse_game_tree"]}
{"id": "C25", "title": "SGF tree nodes stay a tree", "statement": "After any sequence of new_child, delete and reparent calls every node is the child of its parent exactly once, following parents from any node reaches a root, and reparent raises exactly if the new parent is the node itself or one of its descendants (or the node is the root).", "quantifier": "every sequence of tree edits", "why_tests_cant": "all histories of pointer updates", "anchors": ["gomill/sgf.py: Tree_node.new_child, Tree_node.delete, Tree_node.reparent"]}
{"id": "C26", "title": "Game: ending conditions are exclusive and final", "statement": "After any sequence of recorded moves on a Game, it is over exactly if one of: passed out, resignation, claim, forfeit, move limit; exactly one of these flags is set then; once over nothing recorded changes; the winner is set exactly for resignation, claim and forfeit and names the right side.", "quantifier": "every sequence of actions", "why_tests_cant": "all histories", "anchors": ["gomill/gameplay.py: Game"]}
{"id": "C27", "title": "Game: passes and move limit", "statement": "The game is passed out exactly when the last two recorded moves are both passes; move_count is the number of legal moves and passes recorded; the move-limit end occurs exactly when move_count reaches the limit without being passed out; players alternate.", "quantifier": "every sequence of actions and every move limit", "why_tests_cant": "all histories", "anchors": ["gomill/gameplay.py: Game.record_move"]}
{"id": "C28", "title": "Game: ko and legality enforcement", "statement": "A move is rejected as illegal (forfeiting the game) exactly if its point is occupied or is the simple-ko point left by the immediately preceding move; an illegal move leaves the board unchanged.", "quantifier": "every sequence of actions", "why_tests_cant": "all histories", "anchors": ["gomill/gameplay.py: Game.record_move"]}
{"id": "C29", "title": "Score adjustment", "statement": "adjust_score returns the side ahead after komi and handicap compensation, with a non-negative margin which is zero exactly for a jigo, winner None exactly then.", "quantifier": "every board score, komi, handicap and compensation rule", "why_tests_cant": "all values", "anchors": ["gomill/gameplay.py: adjust_score"]}
{"id": "C30", "title": "Game_result pickling round-trip", "statement": "A Game_result that is pickled and unpickled has the same winning colour, winning player, losing player, jigo flag and SGF result.", "quantifier": "every game result", "why_tests_cant": "all results; the unpickling code reconstructs derived fields", "anchors": ["gomill/gameplay.py: Game_result.__getstate__, Game_result.__setstate__", "gomill/gtp_games.py"]}
{"id": "C31", "title": "Game runner: control flow", "statement": "Running a game with a positive move limit terminates after at most that many moves (plus one rejected or erroneous reply); moves alternate colours; an illegal move forfeits for the mover, an opponent's rejection loses for the mover, an opponent's error or a generator failure loses for the side at fault; get_moves returns exactly the accepted moves. The after-move callback is called once for each of these moves (an illegal, rejected or failed move gets no call), in order, with the mover's colour, the move, and the board showing the position after it by the rules of go.", "quantifier": "every pair of player behaviours", "why_tests_cant": "players are arbitrary external programs", "anchors": ["gomill/gameplay.py: Game_runner"]}
{"id": "C32", "title": "GTP engine: responses are well-formed", "statement": "For every input line the engine gives no response (blank, comment or id-only line) or a response starting '=' or '?', followed by the command's id exactly if one was given, and terminated by the only occurrence of two consecutive newlines.", "quantifier": "every input line and every handler behaviour", "why_tests_cant": "handlers and input lines are arbitrary strings", "anchors": ["gomill/gtp_engine.py: Gtp_engine_protocol.handle_line"]}
{"id": "C33", "title": "GTP engine to controller round-trip", "statement": "A controller reading the engine's response text through a line-based channel recovers the same success/failure status and the same response text the handler produced (after the documented whitespace and control-character normalisation).", "quantifier": "every handler response", "why_tests_cant": "all response strings", "anchors": ["gomill/gtp_engine.py: Gtp_engine_protocol.handle_line", "gomill/gtp_controller.py: Linebased_gtp_channel.get_response_impl"]}
{"id": "C34", "title": "GTP state: board equals replay of the history", "statement": "After any sequence of GTP commands (boardsize, clear_board, komi, fixed_handicap, set_free_handicap, place_free_handicap, play, genmove, gomill-genmove_ex, reg_genmove, undo, loadsgf, time commands), provided no failing command changed the board size, the board held by the GTP state is the position obtained by replaying its move history, by the rules of go, from its base position; play and genmove append to the history; undo removes the last move and restores the position, and (when the history it returns to does not end with a pass) everything the move generator is told, including the ko point. Successful handicap commands leave exactly the handicap stones on the board; a successful loadsgf leaves the game in the file. The ko point reported is the one the rules give whenever the last move was not a pass.", "quantifier": "every command sequence", "why_tests_cant": "all histories and arguments (the code reports a stale ko point after a pass by genmove, and after some undos: see DESIGN.md)", "anchors": ["gomill/gtp_states.py: Gtp_state"]}
{"id": "C35", "title": "GTP state: failed commands change nothing", "statement": "A GTP command which reports failure leaves the whole state unchanged, with two exceptions which are the documented behaviour of the code, not of its specification: a failing set_free_handicap on an empty board may forget the history (the position, size and komi stay), and a failing loadsgf may change the board size to that of a file which could be parsed, and (only if the history ends with a pass) the ko point; nothing else.", "quantifier": "every state and every failing command", "why_tests_cant": "all histories and arguments", "anchors": ["gomill/gtp_states.py: Gtp_state"]}
{"id": "C36", "title": "Tournament: each game is recorded exactly once", "statement": "Whatever order game jobs finish in, and however often the run is interrupted and resumed from the saved status, the results of a matchup are those of distinct game numbers; every game number below the number of games is eventually issued, and no result that was saved is lost or replayed.", "quantifier": "every interleaving of get_game, process_result, errors, crashes and resumes", "why_tests_cant": "all schedules and crash points", "anchors": ["gomill/tournaments.py: Tournament.get_game, process_game_result", "gomill/ringmasters.py"]}
{"id": "C37", "title": "Tournament: colours alternate", "statement": "In an alternating matchup, even-numbered games give black to the first player and odd-numbered games to the second; otherwise the first player always takes black; so colour counts of the first k game numbers differ by at most one.", "quantifier": "every matchup and game number", "why_tests_cant": "all counts", "anchors": ["gomill/tournaments.py: Matchup.make_game_ids, Tournament.get_game"]}
{"id": "C38", "title": "Matchup statistics account for every game", "statement": "Wins for player 1, wins for player 2 and unknown results add to the number of games, with jigos counted half to each; the by-colour breakdown adds up to the totals.", "quantifier": "every list of game results", "why_tests_cant": "all result lists; (the by-colour breakdown is wrong with jigos: see DESIGN.md)", "anchors": ["gomill/tournament_results.py: Matchup_stats"]}
{"id": "C39", "title": "All-play-all: every pair meets exactly once", "statement": "For n competitors, there is exactly one matchup per unordered pair, matchup ids are distinct, and the number of games is rounds*n*(n-1)/2. A status saved with one list of competitors can be loaded with another only if the old list is a prefix of the new one, and then every old matchup is still between the same players. Player codes and matchup ids accepted from a control file never contain '#', so the clone that a playoff makes for a player's matchup against itself (code#2) is distinct from every configured player.", "quantifier": "every number of competitors (up to the short-code limit) and rounds; every control file, saved status and changed control file", "why_tests_cant": "all n", "anchors": ["gomill/allplayalls.py"]}
{"id": "C40", "title": "Game ids are unambiguous", "statement": "Zero-padded game ids have constant width within a matchup with a fixed number of games, are distinct for distinct game numbers, and sort in game order.", "quantifier": "every number of games and game number", "why_tests_cant": "all numbers", "anchors": ["gomill/tournaments.py: leading_zero_template", "gomill/competitions.py: leading_zero_template"]}
{"id": "C41", "title": "Job manager: every job is run and processed exactly once", "statement": "Multiprocess run_jobs keeps at most the given number of jobs active, processes the outcome of each job it took from the source exactly once, and finishes only when the source is exhausted and no job is active.", "quantifier": "every completion order", "why_tests_cant": "all interleavings", "anchors": ["gomill/job_manager.py"]}
{"id": "C42", "title": "MCTS tuner: parameter cubes", "statement": "Children of a tree node correspond one to one to coordinate vectors, in lexicographic order; the optimiser parameters for a path are the centre of the cuboid the path leads to, strictly inside the unit cube; the cuboids of a node's children are disjoint and make up the node's, so each generation tiles the cube and different paths of the same length give different parameters.", "quantifier": "every dimension, subdivision and path", "why_tests_cant": "all depths", "anchors": ["gomill/mcts_tuners.py: Tree"]}
{"id": "C43", "title": "MCTS tuner: visit counts", "statement": "After any sequence of games given out, results and failures (in any order), saves and restarts from the status file, each node's visits and wins are its initial ones plus the numbers of completed (won) simulations through it; failed games leave the tree unchanged; the tree has the expected shape; each game follows children of greatest urgency to a leaf; reports about games in progress never give an internal error; at most number_of_games games are played; the status file is always accepted; the best parameters follow the children with most wins.", "quantifier": "every sequence of simulation outcomes", "why_tests_cant": "all histories", "anchors": ["gomill/mcts_tuners.py: Walker, Simulation, Tree"]}
{"id": "C44", "title": "GTP controller to engine: commands arrive as sent", "statement": "A command and arguments accepted by the controller's send_command (well-formed words without '#', the command not starting like a command id) make an engine run exactly that command with exactly those arguments; anything that isn't a GTP word is refused; and over a whole session the controller receives the results of its commands in order.", "quantifier": "every sequence of commands, arguments and handler behaviours", "why_tests_cant": "all strings and all session lengths", "anchors": ["gomill/gtp_controller.py: Gtp_channel.send_command, Linebased_gtp_channel", "gomill/gtp_engine.py: Gtp_engine_protocol.handle_line, run_gtp_session"]}
{"id": "C45", "title": "Ringmaster: --max-games is respected", "statement": "A run started with --max-games=k (k >= 0) starts at most k games, counting replays of failed games, whatever the order in which games finish and whatever was played in earlier runs.", "quantifier": "every history of runs, control file, number of workers and interleaving", "why_tests_cant": "all interleavings and histories", "anchors": ["gomill/ringmasters.py: Ringmaster.get_job, _get_job, run", "gomill/job_manager.py"]}
{"id": "C46", "title": "Ringmaster: a run ends", "statement": "If the control file limits the number of games of every matchup then a run hands out at most two jobs for each game still to be played when it starts, however many games fail; the number of steps made by all the processes is bounded, and until the run is over some process can make a step (no deadlock, no livelock).", "quantifier": "every history, control file, number of workers, interleaving and pattern of failures", "why_tests_cant": "liveness over all interleavings", "anchors": ["gomill/ringmasters.py: process_error_response", "gomill/tournaments.py: process_game_error", "gomill/job_manager.py: Multiprocessing_job_manager.run_jobs"]}
{"id": "C47", "title": "Ringmaster: failed games", "statement": "When a game fails and the last game of its matchup to finish in this run did not succeed (or none has finished), no more games are started in the run; otherwise the failure does not stop the competition, and a run which ends normally has rerun every failed game until it succeeded.", "quantifier": "every history and interleaving, and every pattern of failures", "why_tests_cant": "all patterns of failures under all interleavings", "anchors": ["gomill/tournaments.py: Tournament.process_game_error, process_game_result", "gomill/ringmasters.py: process_error_response, _get_job"]}
{"id": "C48", "title": "MCTS tuner: scale functions", "statement": "LINEAR and LOG results lie strictly between the bounds and divide the (logarithmic) interval in proportion; with integer=True and positive bounds they are the nearest integer and stay within integer bounds; EXPLICIT always gives one of its values, divides the range into equal parts, and when the number of values is split**depth every value is tried at that depth.", "quantifier": "every bounds, list of values, optimiser parameter, path and dimension", "why_tests_cant": "all real parameters, lists and depths", "anchors": ["gomill/mcts_tuners.py: Linear_scale_fn, Log_scale_fn, Explicit_scale_fn"]}
{"id": "C49", "title": "MCTS tuner: when failures stop the competition", "statement": "The failure of a game in progress stops the competition if and only if no game has had a result since the last failure in this run (or since it started).", "quantifier": "every history of games, failures and restarts", "why_tests_cant": "all histories", "anchors": ["gomill/mcts_tuners.py: Mcts_tuner.process_game_error, process_game_result"]}
{"id": "C50", "title": "SGF properties: what is set is read back", "statement": "Node.set accepts a value exactly if the identifier is well formed, the property's type is known, the type can represent the value (points on the board, lists nonempty unless the type allows it, text encodable, reals finite) and the board size isn't changed; otherwise it raises an exception and the node is unchanged. After it, Node.get returns the value, with only the documented conversions for its type (whitespace in text, tiny reals to 0, unknown Doubles to 1, point lists as sets), in every ASCII-compatible encoding; other properties are untouched. register_property, deregister_property and set_private_property_type change the types of exactly the properties they name. Without such changes the standard properties have the types that SGF FF[4] gives them, and all others are texts.", "quantifier": "every property type, value, node, board size up to 25 and ASCII-compatible encoding", "why_tests_cant": "all values of fourteen property types, all texts and encodings", "anchors": ["gomill/sgf.py: Node.get, Node.set", "gomill/sgf_properties.py: Presenter"]}
{"id": "C51", "title": "SGF nodes: what no method can break", "statement": "Whatever sequence of set_raw, set_raw_list, set, unset, set_move, set_setup_stones and add_comment_text is applied to a node, its identifiers and raw values stay well formed (so the game can be serialised), the root's board size always stays the game's, and each method changes only the properties it is about. A failing method changes nothing, except that set_move and set_setup_stones have then removed the old values. After set_move, get_move returns that move and the other colour's property is gone; after set_setup_stones, get_setup_stones returns the same sets; add_comment_text sets the comment or appends after an empty line.", "quantifier": "every node state, every operation and argument, every history", "why_tests_cant": "all histories of edits with all arguments", "anchors": ["gomill/sgf.py: Node.set_raw, set_raw_list, unset, set, set_move, set_setup_stones, add_comment_text"]}
{"id": "C52", "title": "An edited SGF game survives serialising and loading", "statement": "Take any program that creates SGF games, loads others, adds, deletes and moves nodes and calls the Node methods, in any order, with failed calls included. At any time, if the game's CA property still names its encoding, serialise() succeeds for any wrap setting, and Sgf_game.from_string of the result gives a game of the same size and encoding, with the same tree of nodes in the same order and the same raw property values; nodes of other games are unaffected. New games and games loaded with override_encoding name their encoding, and only changing CA can alter that. A parsed game tree can be loaded exactly if its root gives a board size from 1 to 26 and a known encoding (from CA, ISO-8859-1 without CA, or the caller's override_encoding); the game has that size and encoding and the tree's nodes and properties, except that an override replaces CA.", "quantifier": "every session (history of API calls on any number of games), every game in it, every wrap width", "why_tests_cant": "all histories of edits on trees of any size", "anchors": ["gomill/sgf.py: Sgf_game.serialise, Sgf_game.from_string, Sgf_game.from_coarse_game_tree", "gomill/sgf_grammar.py: make_coarse_game_tree, serialise_game_tree, parse_sgf_game"]}
{"id": "C53", "title": "Serialising in another encoding converts the game faithfully", "statement": "If the CA property names an encoding other than the one the game's values are stored in, serialise() succeeds exactly if every value of every node can be converted, and otherwise raises ValueError (UnicodeDecodeError or UnicodeEncodeError). from_string of the result gives a game of the same size in the named encoding, with the same nodes and each value converted, and Node.get of any property of any type then returns what it returned before.", "quantifier": "every session and game in it, every pair of ASCII-compatible encodings, every property type", "why_tests_cant": "all texts, trees and pairs of encodings, including multi-byte characters next to escapes and line wraps", "anchors": ["gomill/sgf.py: Sgf_game.serialise, Sgf_game.from_string", "gomill/sgf_properties.py: Presenter.interpret"]}
{"id": "C54", "title": "Recording positions and moves in SGF games", "statement": "In any session, extend_main_sequence followed by set_move with a point on the board or a pass succeeds and makes get_setup_and_moves return what it did before plus that move (or the same exception as before); set_initial_position(game, board) in a readable game with no move in the root makes it return a board with that position and the same moves; indicate_first_player makes the root say who moves first without changing anything else, and always says so explicitly when there are setup stones other than a handicap's. Other games in the program are untouched, and what get_setup_and_moves returns survives serialising and loading.", "quantifier": "every session and game in it (with standard property types and size up to 25), every board, colour and move", "why_tests_cant": "all games, boards and histories of edits", "anchors": ["gomill/sgf.py: Sgf_game.extend_main_sequence, Sgf_game.main_sequence_iter", "gomill/sgf_moves.py: get_setup_and_moves, set_initial_position, indicate_first_player"]}
{"id": "C55", "title": "The SGF record of a played game is faithful", "statement": "After Game_runner.run, whether it completed the game or an exception stopped it, Game_runner.make_sgf succeeds and adds one game: (if the handicap stones leave an empty point) get_setup_and_moves gives the handicap stones as Black stones and exactly the moves of get_moves, get_komi the komi (0 if it is within 0.0001 of 0), get_handicap the HA handicap, and get_winner the winner of the result, or None if the game has no result. Each move's comment and the final message are in the node of their move. Serialising with any wrap width succeeds, and loading the text gives a game with the same nodes and the same position and moves. Other games in the program are unchanged.", "quantifier": "every backend whose texts are UTF-8, every prepared runner and run of it (board sizes 2 to 25), every session of other SGF games, every wrap width", "why_tests_cant": "all engines, games, comments and crash points of the game", "anchors": ["gomill/gameplay.py: Game_runner.make_sgf, Game_runner.run", "gomill/sgf.py: Sgf_game.get_komi, Sgf_game.get_handicap, Sgf_game.get_winner, Sgf_game.serialise, Sgf_game.from_string"]}
{"id": "C56", "title": "gomill-savesgf and loadsgf are inverse", "statement": "In every state of a Gtp_state with at least one move in its history, gomill-savesgf (with any number of extra arguments giving properties other than those loadsgf reads) writes the file and replies with success, leaving the state unchanged. Any engine, in any state, that accepts the board size and loads the file gets the same board size, initial position, moves (or those before the given move number), komi (0 if it was within 0.0001 of 0), handicap, board and, unless the last move is a pass, the same simple-ko point. The SGF library reads the extra values, the first player and the comments of the moves from the file as they were given. The reply is a success exactly when the file has been written; with an empty history or a malformed extra argument no file is written, and the state never changes.", "quantifier": "every sequence of GTP commands before the save, every move generator and its comments, every extra argument, every engine state and board-size list of the loading engine, every move number", "why_tests_cant": "all game histories and engine states, all strings in comments and extra arguments", "anchors": ["gomill/gtp_states.py: Gtp_state.handle_savesgf, Gtp_state.handle_loadsgf", "gomill/sgf_moves.py: set_initial_position, indicate_first_player, get_setup_and_moves"]}
{"id": "C57", "title": "Gtp_controller follows the protocol on any channel", "statement": "Whatever methods of a Gtp_controller are called, with any engine behind the channel: a command is never sent before the response to the previous one has been read; only well-formed words are sent; the channel is marked bad exactly if a GtpChannelError occurred in sending or reading; after a successful close the channel is never used again. known_command and safe_known_command ask the engine at most once and always give the same answer. do_command has exactly four outcomes according to what the channel does (response; BadGtpResponse with the engine's message; GtpChannelError with the same kind and a message containing the original one). safe_do_command does the same but puts aside the GtpChannelError and returns None, and does nothing on a bad or closed channel; safe_known_command and safe_close never raise; safe_close sends quit unless the channel is bad, closes the channel exactly once and leaves the controller closed. If only safe methods are used, no channel error is lost from the error messages.", "quantifier": "every channel (any state machine, any pattern of failures), every sequence of calls, arguments and aliases", "why_tests_cant": "all engines, channel failures and call histories", "anchors": ["gomill/gtp_controller.py: Gtp_controller.do_command, known_command, check_protocol_version, list_commands, close, safe_do_command, safe_known_command, safe_close, set_gtp_aliases, Internal_gtp_channel"]}
{"id": "C58", "title": "Running a game between two GTP engines never goes wrong, whatever the engines do", "statement": "With open controllers and well-formed aliases: Gtp_game.prepare and set_handicap raise only BadGtpResponse (the controllers remain usable) and GtpChannelError (a channel is bad), apart from ValueError exactly for an unacceptable number of stones and GameRunnerStateError when called out of order (nothing is sent to the engines then). After them, run ends within the move limit; BadGtpResponse is never propagated. If no exception is propagated the game is over, the result is set for these players and game id, CPU times have been asked for, the controllers are open and in cautious mode, and every channel failure since the end of the game has been recorded. If an exception is propagated the result isn't set, and either it is GtpChannelError, the game wasn't over and a channel is bad; or it came from the after-move callback; or the engines gave an infinity or a NaN as the margin in final_score (then run raises OverflowError or ValueError, contrary to its documentation). The moves recorded are those of a game played by the rules in every case. close_players never raises, closes both controllers, and reports every message set aside as a late error. The callback given to set_move_callback is called once for each move of the game, in order, with the board showing the position after that move; nothing else Gtp_game does calls it.", "quantifier": "every pair of engines (any state machines, any responses and failures at any point), every board size 2 to 25, handicap, after-move callback, move limit", "why_tests_cant": "all behaviours and failure points of two engines, over games of any length", "anchors": ["gomill/gtp_games.py: Gtp_game.prepare, set_handicap, run, _Gtp_backend", "gomill/gtp_controller.py: Game_controller.send_command, maybe_send_command, known_command, close_players, describe_late_errors, get_gtp_cpu_times", "gomill/gameplay.py: Game_runner"]}
{"id": "C59", "title": "Scoring by the engines: unanimity about the winner", "statement": "When a passed-out game is scored by the engines, only the allowed scorers are asked, each at most once. A player wins exactly if at least one of the responses to final_score names a winner or a jigo, and all of those name that player; it is a jigo exactly if they all say 0; scorers_disagreed is true exactly if two responses say different things, and then there is no winner and no margin. The margin is set exactly if all those responses give the same positive margin. The result is the winner's letter with the margin (or without it, with detail 'unknown margin'), 0 for a jigo, and ? otherwise, with detail 'players disagreed' or 'no score reported'.", "quantifier": "every pair of engines and every response text, every float() on texts", "why_tests_cant": "all response strings and combinations of them", "anchors": ["gomill/gtp_games.py: _Gtp_backend._score_game_gtp, Gtp_game_score", "gomill/gameplay.py: Result.from_game_score, Game_score"]}
{"id": "C60", "title": "Reading a response copes with any bytes the engine sends", "statement": "For any engine output, get_response on a line-based channel behaves as follows. Whitespace-only lines before a response are ignored, control characters other than tab and newline are discarded everywhere; the response is the lines up to the first empty line, or up to end-of-file if that comes first; what follows the empty line is left unread. It is a success if its first character is '=', a failure if it is '?', and GtpProtocolError otherwise; GtpChannelClosed is raised exactly if there is nothing but whitespace. The response text returned has no control characters or tabs, no leading space, no trailing whitespace, and no empty line except perhaps the first. On the first response, a first byte which can't begin a response gives GtpProtocolError without reading further. Every call consumes something unless the output has ended.", "quantifier": "every finite byte stream from the engine", "why_tests_cant": "all byte streams", "anchors": ["gomill/gtp_controller.py: Gtp_channel.get_response, Linebased_gtp_channel.get_response_impl"]}
{"id": "C61", "title": "A proxy engine is transparent", "statement": "A Gtp_proxy has exactly the commands its back end lists and its own five (known_command, list_commands, protocol_version, quit, gomill-passthrough), until commands are added or removed; list_commands gives each once, in order, and known_command agrees with it. Every other command is answered with '? unknown command' without involving the back end. A forwarded command, or one given to gomill-passthrough, is sent to the back end once with the same arguments, and its response comes back with the same status and text (a failure response without text becomes 'unspecified error'); if the back end can't be reached or answers with something which isn't a response, the client gets a failure response with the controller's message and the session ends. Words from a client's line are never refused by the controller. 'quit' always reaches the back end and ends the session, a back end which has already gone counts as success, and nothing more is sent to the back end by close(). close() always leaves the controller closed and raises BackEndError exactly if errors have been seen. For a well-behaved back end, a session with the proxy writes exactly the same bytes, and leaves the back end in the same state, as the same session with the back end itself.", "quantifier": "every back end and channel behaviour, every handler table, every command and session of lines", "why_tests_cant": "all back-end behaviours and all sessions", "anchors": ["gomill/gtp_proxy.py: Gtp_proxy", "gomill/gtp_engine.py: Gtp_engine_protocol (handler table, protocol commands)"]}
{"id": "C62", "title": "What the move generator is told, and what becomes of its answer", "statement": "Whatever commands a GTP state has handled, the generator asked by genmove, gomill-genmove_ex or reg_genmove is told the board size, the game so far (base position, history with its comments and cookies, and the board the rules give for them), the ko point for the player to move, the handicap, the clock given by the last valid time_left for that player (zero stones meaning None), the last valid time settings, and the komi of the last valid komi command (clamped to \u00b1625) or loaded game; nothing else about the session can influence it. GTP integers are read with negative numbers as -1 and numbers past 2^31-1 clipped; colours are b, black, w, white in any case. Its answer is then obeyed: a claim counts only if the client gave the 'claim' keyword; resigning changes nothing; a pass or a move is reported and added to the history with its comments and cookie, the board following the rules; an illegal move is a failure and changes nothing; reg_genmove changes nothing. explain_last_move gives the comments of the last generated move. get_last_move and get_last_move_and_cookie return the opponent's last move and the player's own preceding cookie.", "quantifier": "every sequence of commands with any arguments, every move generator and every answer", "why_tests_cant": "all histories, argument strings and generators", "anchors": ["gomill/gtp_states.py: Gtp_state._handle_genmove, handle_time_left, handle_time_settings, handle_komi, handle_explain_last_move, get_last_move, get_last_move_and_cookie", "gomill/gtp_engine.py: interpret_colour, interpret_int"]}
{"id": "C63", "title": "The commands a game sends to its engines follow the game", "statement": "For any engines, channels and aliases (which don't confuse a game command with a query), each engine of a Gtp_game is sent - apart from the queries known_command, gomill-explain_last_move, final_score and gomill-cpu_time - exactly boardsize, clear_board and komi, then the handicap command (fixed_handicap to both; place_free_handicap to Black and set_free_handicap with the same points to White), and then for the moves of the game in order genmove (or gomill-genmove_ex with 'claim', only to a player who may claim) for its own moves and play with the colour and vertex for its opponent's, and nothing after the end: a player is told of every move of the opponent before it is asked for its next move, and never of a move which isn't in the game. How replies are interpreted: 'resign', 'claim' (if the player may claim), a vertex or pass in either case, anything else is a forfeit, as is a failure response; a failure 'illegal move' to play is a claim that the move is illegal and any other failure an error; a fixed handicap is accepted exactly if the engine lists the right set of points, a free handicap exactly if it lists different points.", "quantifier": "every engine and channel behaviour (including failures at any command), alias set, configuration, handicap, number of moves", "why_tests_cant": "all engine behaviours and all games, including games cut short by an exception at any command", "anchors": ["gomill/gtp_games.py: Gtp_game.prepare, set_handicap, run; _Gtp_backend.get_move, notify_move, notify_fixed_handicap, get_free_handicap, notify_free_handicap", "gomill/gameplay.py: Game_runner"]}
{"id": "C64", "title": "Engines built on Gtp_state stay in step with the game", "statement": "When a Gtp_game is played between two engines built from Gtp_state (attached by internal channels), then whatever the engines did before, and however the run ends, each engine's Gtp_state has the game's board size, its starting position (including fixed or free handicap stones), and exactly the moves of the game record it has been told of, with the position those lead to and the right ko point. Every action taken in the game is what the player's move generator chose when shown that game; an engine never refuses its opponent's move. So a game is forfeited only if the generator of the player to move failed or tried to play at a point which isn't vacant, and an illegal move is always one the generator was told is forbidden by ko.", "quantifier": "all board sizes 2 to 25, all pairs of move generators (stateful, possibly failing), all handicaps, all earlier states of the engines, all games, and all points at which the run can raise", "why_tests_cant": "it is an invariant of the combination of referee, controllers, protocol and state handlers over whole games of any length, with arbitrary generators", "anchors": ["gomill/gtp_states.py: Gtp_state", "gomill/gtp_games.py: _Gtp_backend", "gomill/gtp_controller.py: Game_controller, Internal_gtp_channel", "gomill/gtp_engine.py: Gtp_engine_protocol.run_command", "gomill/gameplay.py: Game_runner"]}
{"id": "C65", "title": "The cross-entropy tuner's new distribution comes from the best candidates", "statement": "When the last game of a generation is processed (and only then), the tuner's distribution is replaced. The elite are the elite_proportion of the candidates, rounded half up but at least one, which have the most points in the generation's games (among equals, those with higher numbers). For each dimension, the new mean moves by step_size from the old mean towards the mean of the elite's parameters, and the new variance by step_size from the old variance towards the (population) variance of the elite's parameters; the number of dimensions stays the same and no variance is ever negative. Until then, the distribution and the candidates' parameters stay as they are.", "quantifier": "all distributions, samples, step sizes and elite proportions strictly between 0 and 1; every history of games, errors, stops, crashes and restarts", "why_tests_cant": "Tests calculate one example with fixed samples; that the right candidates are chosen, and the update is right, for all results and all histories needs proof.", "anchors": ["gomill/cem_tuners.py: Distribution, update_distribution, Cem_tuner.finish_generation, Cem_tuner.process_game_result"]}
{"id": "C66", "title": "A cross-entropy tuning event plays each candidate's games exactly once, through crashes and restarts", "statement": "However runs are stopped, crash and are restarted: no two games have the same id, and no game whose result has been saved is played again; in each completed generation every candidate has played exactly the same rounds 0..k-1, where k is a batch size which was in use; the candidates' wins are exactly the points (1 for a win, 1/2 for a jigo or no result) in the recorded games of the generation; no generation is started beyond number_of_generations, there are no more games exactly when all are complete, and until then the event never stalls. Nothing raises an exception except the control file's own functions. A game which fails is retried once if there was a result in this run, and otherwise the competition stops. This needs: batch_size isn't lowered; number_of_generations stays greater than the number of completed generations; neither is changed after the event is finished. (The documentation says number_of_generations can be changed safely and batch_size increased; without these conditions the event may never end, or stall.)", "quantifier": "all valid settings, all interleavings of getting games, results, errors, stop requests, crashes, failures to write the status file, failing user functions, and restarts with changed control files", "why_tests_cant": "The number of interleavings of results, crashes and restarts over several generations is unbounded.", "anchors": ["gomill/cem_tuners.py: Cem_tuner", "gomill/competition_schedulers.py: Group_scheduler", "gomill/ringmasters.py: Ringmaster"]}
{"id": "C67", "title": "SGF game information accessors", "statement": "get_player_name returns the value of PB for black and PW for white (None if absent), get_winner the colour named by the first letter of RE in either case (None if absent or neither), get_komi the value of KM (0 if absent, ValueError if it isn't one finite number), get_handicap the value of HA (None if absent or 0, ValueError if 1 or not one number). What is set is what is returned, and one player's name doesn't affect the other's. set_date sets DT to YYYY-MM-DD and nothing else (ValueError and no change for years before 1900). find_property returns the value in the nearest of the node and its ancestors which has the property, and raises KeyError exactly if none has.", "quantifier": "every property map of a root node, every name, result, komi and date, every ASCII-compatible encoding; every node of every game reachable by any history of edits", "why_tests_cant": "all texts, encodings and trees", "anchors": ["gomill/sgf.py: Sgf_game.get_player_name, get_winner, get_komi, get_handicap, set_date, Tree_node.find_property"]}
{"id": "C68", "title": "Engine descriptions are valid UTF-8 and say what the engine reported", "statement": "An engine description made from an engine's responses keeps the raw name and version unchanged; name, version and description are None exactly if the response was absent or empty, are the response itself when it is valid UTF-8, and otherwise a repaired valid text. clean_version is the version without a leading copy of the engine's name (in either case, and following whitespace), and, if that is longer than 64 characters, only the part before MoGo's or Pachi's usage instructions or else its first word; it is always a piece of the version. The short description is the name, followed by ':' and the clean version if that has at most 32 characters, and None if there's no name; the long description is the engine's own description if there is one, and otherwise put together from name and clean version; both are valid UTF-8. Creating a description raises nothing for responses without trailing whitespace. from_controller sends name, version and (if it is known) gomill-describe_engine in that order, treating failure responses as absent.", "quantifier": "all byte strings as the responses, present or absent; every channel and controller state", "why_tests_cant": "all byte strings, including ill-formed UTF-8 cut at any point by the cleaning", "anchors": ["gomill/gtp_controller.py: Engine_description", "gomill/utils.py: sanitise_utf8"]}
{"id": "C69", "title": "SGF records of games between engines", "statement": "When a game job finishes a game it writes exactly one SGF file, sgf_filename in sgf_dirname (nothing if either isn't set). The file can be loaded, and the loaded game has the game's setup stones and moves in order, komi and handicap, RE is the result, GN the job's SGF game name or else the game id, EV the event, PB and PW the engine's short description (or the player code if that's not available or not wanted). The root comment gives the event, game id, date, result (if there were moves), note, known CPU times and a line for each player; each move's node has the engine's comment on it; the last node's comment ends with the final message, the description of the result (with the scores the players reported, if one of them differs from the result), and the errors seen when closing the engines. When a game is aborted after at least one move the same is written to void_sgf_dirname (created if necessary), with RE Void and the error message before the late errors; with no moves nothing is written.", "quantifier": "every job, game and result between any two engines, all texts valid UTF-8 without carriage returns, board sizes 2 to 25", "why_tests_cant": "all games, texts and combinations of options; the escaping and wrapping of the file must be undone exactly by loading", "anchors": ["gomill/game_jobs.py: Game_job._make_sgf, _record_game, _record_void_game, _write_sgf", "gomill/gtp_games.py: Gtp_game.make_sgf, describe_scoring"]}
{"id": "C70", "title": "What a game job does: files, processes, result or failure", "statement": "Running a game job opens and closes files in a balanced way however it ends: every file it opened is closed, nothing is written to a file that isn't open, and no process is started with its stderr going to a file that isn't open. The black engine is started before the white one, each at most once, with the player's command, working directory and environment (GOMILL_GAME_ID, GOMILL_SLOT if there's a worker id, the player's own settings, all else inherited); if the job ends with a result or JobFailed every engine started has had its channel closed. A job with a result has written one SGF file to sgf_dirname (if that and the filename are set); a failed one at most one to void_sgf_dirname, and only if moves had been played. JobFailed says that the player codes are the same (and then nothing has been done), or 'aborting game due to error' with the text of the error starting an engine or of the GTP error before or during the game, followed by the errors put aside for the black and then the white engine. A result has the job's game id and game data, the outcome of the game for these players, a warning exactly if it's a forfeit, the errors put aside as a log entry, the engine descriptions, and CPU times from the engine or, unless it gave an error, from the process's resource usage.", "quantifier": "every job, worker id, and environment: any behaviour of the engines, of starting processes, and of opening files", "why_tests_cant": "every combination of failures at any point in the job and all engine behaviours", "anchors": ["gomill/game_jobs.py: Game_job.run, _run, _start_player, _record_game, _record_void_game, Player.make_environ", "gomill/gtp_controller.py: Game_controller.close_players, describe_late_errors, set_player_subprocess"]}
{"id": "C71", "title": "A game job always ends properly and the game isn't lost", "statement": "If the job's files can be opened and all texts (of the job, and from the engines) are UTF-8 without carriage returns, then Game_job.run ends, with a result or JobFailed, whatever the engines do: wrong, late or missing responses, failure responses, closed channels, illegal moves. The one exception: when the engines do the scoring and one of them gives an infinity or a NaN as the margin, there can be another exception. If the game was completed there is a result, and exactly one SGF file has been written (if there is a directory and filename), which can be loaded and contains the game, result and comments as described in C69. If a GTP error stopped the game there is JobFailed and, if there were any moves, exactly one SGF file with the game so far, RE Void and the error has been written (if there is a directory for void games and a filename).", "quantifier": "every job with board size 2 to 25 and a move limit, every pair of engines and every sequence of responses, every worker id", "why_tests_cant": "unbounded interaction with arbitrary engines; the absence of any other exception can only be shown for all of them", "anchors": ["gomill/game_jobs.py: Game_job.run, Game_job._run, _record_game, _record_void_game", "gomill/gtp_games.py: Gtp_game.run, Gtp_game_backend", "gomill/gtp_controller.py: Game_controller"]}
{"id": "C72", "title": "check_player says exactly whether an engine is usable", "statement": "check_player returns a list of warnings if and only if the player's working directory (if given) is a directory, the process starts, the engine reports GTP protocol version 2 or gives a failure response to protocol_version, and then accepts all the startup commands, boardsize, clear_board and komi; otherwise it raises CheckFailed, whose message says what went wrong: the directory, the error starting the process, the wrong version, or the failure response or channel error for the first command that wasn't accepted. There are no warnings exactly if the engine also accepts quit and its channel closes without an error. The commands are sent in that order, under the player's GTP aliases, none after the first that isn't accepted; if CheckFailed isn't raised all of them, ending with quit, have been sent and the channel has then been closed.", "quantifier": "every player whose commands are well-formed words, every engine (any behaviour of the process and channel), board size and komi", "why_tests_cant": "arbitrary engine behaviour at every step", "anchors": ["gomill/game_jobs.py: check_player", "gomill/gtp_controller.py: Gtp_controller.check_protocol_version, do_command, safe_close"]}
{"id": "C73", "title": "Settings mean what the control file says", "statement": "load_settings gives each setting the value in the configuration (after resolving a config proxy and interpreting it), or its default if the name is missing and defaults are being applied, or leaves it out if allow_missing is set; otherwise it raises ValueError naming the first setting which is missing or whose value is invalid, with the interpreter's explanation. Nothing else appears in the result. Each interpreter accepts exactly the documented values and refuses everything else with ValueError: True/False, ints (which includes True and False), positive ints, board sizes 2 to 25, NUL-free 8-bit strings, strings which are (or are converted to) valid UTF-8, identifiers, enumerated words, sequences, command lines, maps (sorted by key), or None where allowed. Quiet_config arguments are accepted exactly if there aren't too many positional ones, all keywords are known and none is given twice.", "quantifier": "every configuration, list of settings with different names, and value in a control file", "why_tests_cant": "arbitrary Python values, any subset of settings given", "anchors": ["gomill/settings.py: load_settings, Setting, interpret_*, allow_none, Quiet_config.resolve_arguments", "gomill/competitions.py: interpret_board_size"]}
{"id": "C74", "title": "Players in a control file become the right engines", "statement": "A Player(...) in a control file is accepted exactly if its arguments are acceptable, it has a nonempty command line, pathnames can be resolved, its flags are booleans, its environment and GTP aliases are maps of strings, the aliases are well-formed GTP words and its startup commands are nonempty sequences of well-formed words; the resulting player has exactly those values (with documented defaults; a command containing a slash, and the cwd, are resolved relative to the base directory). So every word gomill will send to the engine on account of its configuration is well-formed. A competition has exactly the players in the `players` map, and every problem with them is reported as ControlFileError.", "quantifier": "every control file configuration, any behaviour of list(), dict(), shlex.split and expanduser", "why_tests_cant": "arbitrary combinations of arguments and values", "anchors": ["gomill/competitions.py: _player_settings, Player_config, game_jobs_player_from_config, resolve_pathname, Competition.initialise_from_control_file", "gomill/gtp_controller.py: is_well_formed_gtp_word"]}
{"id": "C75", "title": "A playoff's control file becomes the right games", "statement": "A playoff's control file is accepted exactly if its players are acceptable (C74), the settings given globally are acceptable and, when a global board size is given, so is the global handicap, and the nonempty list of Matchup(...)s describes matchups: each with known players (or a clone of one, code#2, when a player plays itself), an identifier used once, each setting taken from the matchup, else from the control file, else the documented default, and a handicap possible for its board size and style. The matchups are exactly those described. Every game job then has its matchup's settings and players, well-formed configured words, a board size from 2 to 25, a positive move limit and a handicap which the game runner can set up. The startup checks are made once for each player with games to play, with the settings of its first such matchup. Every problem is reported as ControlFileError, except that a komi too big to be a float, given globally, makes the program fail with OverflowError.", "quantifier": "every control file configuration, any behaviour of list(), dict(), shlex.split and expanduser; every state of the tournament", "why_tests_cant": "arbitrary combinations of settings, given in any of three places, and any list of matchups", "anchors": ["gomill/playoffs.py: Playoff.matchup_from_config, initialise_from_control_file, get_player_checks", "gomill/tournaments.py: Matchup, make_matchup, matchup_settings, get_game", "gomill/competitions.py: game_settings, validate_handicap, interpret_board_size"]}
{"id": "C76", "title": "An all-play-all's control file becomes the right games", "statement": "An all-play-all control file is accepted exactly if its players are acceptable (C74), the settings for the games (board_size, komi, move_limit, scorer, internal_scorer_handicap_compensation, rounds) are acceptable, with the documented defaults, and competitors is a nonempty list of at most 702 different known players, each given as a code or as Competitor(code). The competitors are named A to Z, then AA to ZZ, in order, and there is exactly one matchup for each two of them, earlier against later, named by the two letters, without handicap, with alternating colours and with as many games as rounds says. Every game job has those settings, the right players, a possible size and a positive move limit. With at least two competitors the startup checks are one for each, with the board size and komi of the games; with a single competitor the check fails with IndexError. Every problem with the control file is reported as ControlFileError, except a komi too big to be a float, and a refused competitor which can't be shown as text.", "quantifier": "every control file configuration, any behaviour of list(), dict(), shlex.split, expanduser and %s; every state of the tournament", "why_tests_cant": "arbitrary lists of competitors and combinations of settings", "anchors": ["gomill/allplayalls.py: Allplayall.competitor_spec_from_config, initialise_from_control_file, get_player_checks", "gomill/tournaments.py: Matchup, make_matchup, get_game", "gomill/competitions.py: game_settings"]}
{"id": "C77", "title": "A control file is found, read and refused as documented, and the competition's files can't collide", "statement": "The competition's code is the control file's name without its extension, and its log, status, command, history, report, games, void games and GTP log pathnames are all in the control file's directory, with that code as name and one of eight reserved extensions. The eight pathnames are different; two competitions share one only if they have the same directory and code; and (unless the code consists of dots) none of them is accepted as the pathname of a control file, so that no competition can overwrite its own control file or another one. A Ringmaster can be made exactly if the file can be read, its first line other than blank lines and comments is a simple assignment of a string literal to competition_type naming one of the four types, it is UTF-8, it is Python code which runs without an exception and leaves competition_type with that value, record_games, stderr_to_log and skip_player_checks are booleans (or absent, with the documented defaults), and the competition accepts the settings (C75, C76). In every other case the exception is RingmasterError, with a message which says which of these is wrong, the first being reported.", "quantifier": "every pathname, every text of the control file, every behaviour of open(), of the Python code in the file and of the tuners' initialisation", "why_tests_cant": "arbitrary pathnames, texts and configurations", "anchors": ["gomill/ringmasters.py: Ringmaster.__init__, _read_control_file, _load_control_file, _parse_competition_type, _get_competition_class, _initialise_from_control_file, ringmaster_settings"]}
{"id": "C78", "title": "Resetting a competition removes its output and nothing else, and its game records have their own pathnames", "statement": "The reset command removes each of the competition's five output files and, with everything below them, its three output directories; when that fails for one of them the error is printed and it goes on to the others; every error printed comes from such a failure. Nothing else is changed: in particular, unless the code consists of dots, the control file and all the files of other competitions whose control files are in the same directory stay. A game job prepared by the ringmaster differs from the competition's only in the game's name and in where things are written, which is <game id>.sgf in the directory for game records (or void games), <game id>.log in the directory for GTP logs and the log file, each only if requested; running the job writes exactly that record when there is a result, at most the one for a void game otherwise, and no record when games aren't recorded. Different game ids have different pathnames, and the game ids of tournaments made from any control file have no slash.", "quantifier": "every control file pathname, filesystem, set of failures of os.remove and shutil.rmtree, game job, engine behaviour and tournament", "why_tests_cant": "arbitrary filesystems, names and histories", "anchors": ["gomill/ringmasters.py: delete_state_and_output, _prepare_job, get_sgf_filename, get_sgf_pathname", "gomill/game_jobs.py: Game_job.run", "gomill/tournaments.py: get_game"]}
{"id": "C79", "title": "At most one run of a competition is in progress at a time, and earlier runs never prevent one", "statement": "When a run starts it holds the lock on the log file, which nobody held; the log and history files are there with what was in them, there is no command file from an earlier run, the directories it will write to are there, and nothing else has changed. If another run has the lock, the start is refused with 'competition is already running' and nothing has changed. In every session of starts, failures, ends (or kills) of processes and other changes of files which leave the log files of runs in progress alone, two runs with the same log file are the same run; while one is in progress every other start is refused, and a start is only refused for that reason if one is in progress. A start which fails for another reason raises RingmasterError with a message saying which step failed (other than in the case below), and never changes anything which was there, other than by removing the command file.", "quantifier": "every session: sequences of starts, ends and other events; every filesystem; every failure of open, os.remove and os.mkdir", "why_tests_cant": "arbitrary interleavings and crash points", "anchors": ["gomill/ringmasters.py: _open_files, _close_files, run"]}
{"id": "C80", "title": "The command line does what it says, in the right order, with the documented exit statuses", "statement": "With a control file and one of the seven commands (run if none is given), the program does one of the sequences of actions listed for that command, unless an action raises an exception, which ends it there: so no games are played unless the control file could be loaded and the players passed the startup checks (or these were to be skipped), the competition goes on from the status file exactly if there is one, the report is written only after the run has finished, and show and report refuse to work without a status file. The exit status is 0 for success, 1 for failed checks, a missing control or status file and RingmasterErrors (which are printed), 2 for a command line which makes no sense (nothing is done), 3 for KeyboardInterrupt and 4 for anything else. Checking players succeeds exactly if the checks are to be skipped (only for run), or every player passes (C72); it stops at the first failure and describes it. A status file is accepted exactly if it has the right versions and contents and the competition accepts the state in it; otherwise the error is RingmasterError, with a message which says what's wrong; what the ringmaster wrote can be loaded.", "quantifier": "every command line, every behaviour of the actions (exceptions and answers), every list of checks and behaviour of engines, every contents of the status file", "why_tests_cant": "arbitrary behaviour at every step", "anchors": ["gomill/ringmaster_command_line.py: run, do_run, do_stop, do_show, do_report, do_reset, do_check, do_debugstatus", "gomill/ringmasters.py: check_players, load_status, set_clean_status, write_status"]}
{"id": "C81", "title": "Tables are rendered with everything in its place", "statement": "If a table has rows and its headings don't need more columns than there are, then render() succeeds: no cell or heading is cut off or overlaps another, whatever the values; every cell is in its column, aligned as requested, with just the requested number of spaces after it; every heading starts where its first column starts, and ends at least one place before the column after its last; columns aren't wider than their widest cell, except when a heading needs it, and then not more than it needs. Lines have no whitespace at the end, and the lines which are omitted are those whose cells are all blank. set_column_values sets the values from the top of the given column and changes nothing else; add_column numbers columns from the left. A table without a row count gives TypeError; one with columns and no rows gives ValueError; too many headings, IndexError.", "quantifier": "every table: any number of rows, columns and headings, any spans, paddings, alignments and values (without whitespace other than spaces)", "why_tests_cant": "unbounded tables and values; layout interactions between headings, spans and widths", "anchors": ["gomill/ascii_tables.py: Table.render, Table.set_column_values, Table.add_heading, Table.add_column, Column_spec.render"]}
{"id": "C82", "title": "Reports say what the results are", "statement": "A playoff's or all-play-all's report can be made whatever the control file (once accepted) and whatever results of its jobs there are (except that an all-play-all with one competitor fails with IndexError). There is a block for each matchup which has results, in the control file's order, saying how many games were played (out of how many), how many had an unknown result, and the board size, handicap and komi, with a table whose cells are: the players; their scores (a point for a win, half for jigo) and the percentages of the number of games; if they swapped colours, the scores and percentages for each colour (all the jigos count towards each), or else the colours; forfeits if there were any; the average of the known CPU times of each player, if there are any and not all averages are zero. Playoffs then report on the results whose matchups are missing from the control file, in order of matchup id. An all-play-all's report begins with the number of games played and expected and a table with each competitor's score against each other one; in it and in the tables all is in its place. Then come the players' descriptions, in order.", "quantifier": "every accepted control file, every list of results of its matchups' games, every number format", "why_tests_cant": "unbounded numbers of competitors, matchups and results, and all combinations of optional columns", "anchors": ["gomill/tournament_results.py: make_matchup_stats_table, write_matchup_summary, Matchup_description.describe_details", "gomill/tournaments.py: Tournament.write_matchup_report, write_matchup_reports, write_ghost_matchup_reports, write_player_descriptions", "gomill/playoffs.py: Playoff.write_short_report", "gomill/allplayalls.py: Allplayall.write_screen_report, write_short_report, count_games_expected, count_games_played", "gomill/utils.py: format_float, format_percent"]}
{"id": "C83", "title": "Tuners' control files are accepted exactly when they say what a tuner must do", "statement": "A control file for the cross-entropy tuner or for the tree-search (MCTS) tuner is accepted exactly when: the description and the players are acceptable, the settings of the games are (and the handicap fits the board size), candidate_colour is a colour or 'r'/'random', opponent is the code of one of the players, parameters is a non-empty list of Parameter(...) objects with different codes, make_candidate is a function, and the settings of its own kind of tuner are right (positive integers; elite_proportion and step_size strictly between 0 and 1; for MCTS, a finite komi which isn't a whole number). A Parameter is acceptable exactly when its code is an identifier, its other arguments have the right types (the variance not negative), the transform (or scale) function works for the initial mean (or the middle of the first part of the range) and the format works for what that gives. Then the tuner has exactly those settings and parameters, in the given order, with the documented defaults. Otherwise, the exception is ControlFileError, unless it comes from a number too large for a float, an object which can't be shown in a message, or (MCTS) a komi which is infinite or NaN.", "quantifier": "every namespace produced by a control file, with every value for every setting and every parameter, all functions", "why_tests_cant": "unbounded lists of parameters, all types of values for some 30 settings, arbitrary Python functions", "anchors": ["gomill/cem_tuners.py: Cem_tuner.initialise_from_control_file, parameter_spec_from_config, global_settings, special_settings, parameter_settings", "gomill/mcts_tuners.py: Mcts_tuner.initialise_from_control_file, parameter_spec_from_config, global_settings, special_settings, tree_settings", "gomill/settings.py: interpret_colour, interpret_callable, interpret_sequence_of"]}
{"id": "C84", "title": "Tuners make the right candidates and games", "statement": "A tuner gets a candidate for a vector of optimiser parameters exactly when each transform (or scale) function works for its component, make_candidate works for the results (in the order of the parameters) and gives a Player, and that is an acceptable description of a player; the candidate is that player, with the code the tuner chose. Otherwise CompetitionError says why: the function which failed first, make_candidate failed, it gave something else, or the description was bad (with the parameters shown); any other exception comes from showing an object. The candidates' codes differ from those of all the players in the control file. In a game the candidate has the colour from the control file, or the random one, and the opponent has the other; the size, komi, handicap, move limit and scoring are those of the control file, the SGF event is the competition code and the note shows the candidate's parameters, each by its format, or by code and value if the format fails. The player checks are for the candidate and the opponent, with that board size and komi.", "quantifier": "every accepted tuner control file, all optimiser parameters, all functions given by the user, all random choices", "why_tests_cant": "arbitrary Python functions for the parameters and candidates, unbounded numbers of parameters", "anchors": ["gomill/cem_tuners.py: transform_parameters, format_engine_parameters, format_optimiser_parameters, make_candidate, get_player_checks, choose_candidate_colour, get_game", "gomill/mcts_tuners.py: scale_parameters, format_engine_parameters, make_candidate, get_player_checks, get_game"]}
{"id": "C85", "title": "From the control file, through any history of runs, to the report", "statement": "Start from a control file for a playoff or an all-play-all which is accepted. After any history of runs of the ringmaster (with any numbers of workers, failed games, stops and crashes), the results saved for a matchup are those of different games of it, each with the players and colours which a control file that was in use gives for the game's number. The report is written whenever the status can be loaded with the present control file \u2014 always, if a status was saved and the control file has not changed \u2014 and it says exactly what is saved: a block for each matchup with results, in the control file's order; then for a playoff the matchups which are no longer in the control file; for an all-play-all the number of games and the table of scores; then the players. When a run ends by itself with the competition complete, and the control file was always the same, the saved results of each matchup are those of games 0 up to the number of games in the control file, once each, and if the colours alternate they are shared equally (player 1 has Black once more if the number is odd).", "quantifier": "every accepted tournament control file, every history of runs and crashes, all results of games, all schedules of the workers", "why_tests_cant": "unbounded histories of runs, crashes and worker interleavings, followed by arbitrary later control files", "anchors": ["gomill/ringmasters.py: run, load_status, report", "gomill/ringmaster_command_line.py: do_run, do_report", "gomill/tournaments.py: get_game, process_game_result, set_status, write_matchup_reports, write_ghost_matchup_reports", "gomill/playoffs.py: initialise_from_control_file, write_full_report", "gomill/allplayalls.py: initialise_from_control_file, write_full_report"]}
{"id": "C86", "title": "The MCTS tuner's reports and history say what happened", "statement": "After any history of games, failures, saves and restarts of a valid MCTS tuning event, the report is made unless the function which formats parameters fails (then its exception is raised). It says how many games ended; the best parameters (those at the middle of the cell which is reached by always going to the child with most wins, the first of equal ones); and for each depth asked for, the nodes with most completed simulations through them (of equal ones the first), in order of their coordinates, each with its parameters, its win rate (including the initial wins and visits) and its number of completed simulations. The screen report adds the games in progress in order of number, as many as the control file asks for. The short report (which is also the full report) has the heading and the opponent. When a game has a result, the history gets the simulation's parameters, its path and whether the candidate won, and then the tree's description if the number of games which have ended is a multiple of the period. The description of the tree says the number of nodes (the counter which the program keeps is right), the number of completed simulations and how many were won, and shows all nodes to depth 2.", "quantifier": "every valid tree configuration, every formatter of parameters, every history of games, failures, saves and restarts, every summary specification", "why_tests_cant": "statistics and orderings after unbounded histories; ties between nodes; arbitrary splits and depths; failures of user-supplied formatters", "anchors": ["gomill/mcts_tuners.py: Tree.describe_choice, Tree.describe, Tree.summarise, Tree.expand, Simulation.describe, Mcts_tuner.process_game_result, write_static_description, _write_main_report, write_screen_report, write_short_report"]}
{"id": "C87", "title": "The CEM tuner's reports and history say what happened", "statement": "After any history of runs, crashes and (allowed) changes of settings of a CEM tuning event, the report is made unless the formatter of parameters fails (then its exception is raised); it says how many generations have been completed, the points of every candidate in the games played in the generation in progress (at the end, in the last one), and the current distribution with its variances. The report made from the status file says this for the games whose results were saved, and reading the status back does not change it. When a result completes a generation (and only then) the history gets the distribution the generation was drawn from and one line for each candidate, those with most points first (of equal ones, the higher numbers), with its parameters and its whole points (half points are not shown); a star marks exactly the candidates from which the new distribution is calculated. The note in a game's record shows the parameters of the game's candidate. The event log says that a generation starts exactly when a game is asked for and no game of the generation has been played or is being played.", "quantifier": "every accepted configuration, every formatter of parameters, every history of runs, crashes and allowed changes of settings, all results", "why_tests_cant": "points and orderings after unbounded histories with crashes and restarts; ties between candidates; failures of user-supplied formatters", "anchors": ["gomill/cem_tuners.py: Distribution.format, Distribution.get_means, Cem_tuner.finish_generation, get_game, process_game_result, format_distribution, format_generation_results, write_static_description, write_screen_report, write_short_report"]}
{"id": "C88", "title": "The ringmaster keeps its contract with any competition", "statement": "For any Competition object (whatever its methods return, change or raise), in every interleaving of the managing process and the workers: the ringmaster calls get_game only when the run hasn't been stopped and no game is waiting to be retried, and raises its internal error exactly when the job's id is that of a game being played; it calls process_game_result and process_game_error only for games which are being played (started and not yet reported), once for each time a game is played; if ids are not reused, previous_error_count is the number of earlier failures of that game in this run; a game is started again only when process_game_error returned (False, True) for it, once each time; nothing is started after a stop; with --max-games k at most k games are started and the run ends; when it ends without an exception, every started game has been reported, and unless it was stopped nothing remains to be retried and get_game's last answer was NoGameAvailable. The status file holds the state the competition had just after the last report, and the total number of void games. After an exception nothing more is asked of the competition. The next run starts from what set_status makes of the saved state. A run without worker processes makes the same calls as some run with one worker.", "quantifier": "every competition (any state, any answers, any exceptions, environment-dependent), every number of workers, every interleaving, every failure of the status file, stop requests at any moment, max-games", "why_tests_cant": "unbounded histories and interleavings, for all competitions at once, including future ones", "anchors": ["gomill/ringmasters.py: Ringmaster._get_job, get_job, process_response, process_error_response, write_status, load_status, set_clean_status, _halt_competition, _update_display, run", "gomill/competitions.py: Competition.get_game, process_game_result, process_game_error", "gomill/job_manager.py: In_process_job_manager, Multiprocessing_job_manager"]}
{"id": "C89", "title": "An MCTS tuning event as the ringmaster runs it", "statement": "For an MCTS tuner run by the ringmaster, after any history of runs with any number of workers and any interleaving, including games which fail, stops, CompetitionErrors from the user's functions, failures to write the status file, and crashes at any moment: the statistics at each node of the tree are the initial ones plus those of the games reported in this run and the games of earlier runs whose reports reached the status file, each counted exactly once, at the nodes on the way to the parameters it was played with; no game number is ever counted twice; the games being played are simulations along paths whose parameters are those given to the players. When nothing is running the same is true of the tree in the status file, as far as the reports written to it. A new run can always be started from the status file. No run ends with an internal error (KeyError, duplicate game id...): only with CompetitionError or because the status file couldn't be written. If number_of_games is given, when a run ends by itself exactly that many games have ended over all the runs; games in one run have different ids.", "quantifier": "every configuration of the tree, every number_of_games, every history of runs, crashes and stops, every interleaving of any number of workers, every random choice, every outcome of every game", "why_tests_cant": "the interplay of scheduler, tree, status file, ringmaster and job manager over unbounded histories; crash points can't be enumerated by tests", "anchors": ["gomill/mcts_tuners.py: Mcts_tuner.get_game, process_game_result, process_game_error, get_status, set_status, set_clean_status", "gomill/ringmasters.py: Ringmaster._get_job, process_response, process_error_response, write_status, load_status", "gomill/competition_schedulers.py: Simple_scheduler", "gomill/job_manager.py: Multiprocessing_job_manager"]}
{"id": "C90", "title": "A CEM tuning event as the ringmaster runs it", "statement": "For a CEM tuner run by the ringmaster, after any history of runs with any number of workers and any interleaving, including games which fail, stops, CompetitionErrors from the user's functions, failures to write the status file, and crashes at any moment: no game's result is ever counted twice over all the runs; the candidates' wins are exactly what they scored (1 for a win, 1/2 if nobody won) in the games of the current generation which were reported in this run, or in earlier runs whose reports reached the status file; every candidate of every earlier generation has played exactly its batch of games; the games being played, or waiting to be played again, belong to candidates of the current generation and haven't been counted. When nothing is running the same is true of the status file. A new run can always be started from it. No run ends with an internal error. When a run ends by itself, every candidate of every generation has played exactly its batch of games, each counted once, and nothing else was counted. A game which fails is played again if it's its first failure and some game has been successful in this run; otherwise the competition is stopped. Games in one run have different ids.", "quantifier": "every tuner configuration which the control file accepts, every history of runs, crashes and stops, every interleaving of any number of workers, every random choice, every outcome of every game", "why_tests_cant": "the interplay of scheduler, generations, status file, ringmaster and job manager over unbounded histories; crash points can't be enumerated by tests", "anchors": ["gomill/cem_tuners.py: Cem_tuner.get_game, process_game_result, process_game_error, finish_generation, get_status, set_status, set_clean_status", "gomill/ringmasters.py: Ringmaster._get_job, process_response, process_error_response, write_status, load_status", "gomill/competition_schedulers.py: Group_scheduler", "gomill/job_manager.py: Multiprocessing_job_manager"]}
{"id": "C91", "title": "A tournament's results, as a script sees them", "statement": "After any history of runs of a tournament (with crashes, failed games and changes of control file), a script which makes a Ringmaster, calls load_status (which succeeds whenever there's a status file and the control file has stayed the same) and then get_tournament_results gets an object which, for any sequence of calls, answers as follows. get_matchup_ids: the ids of the control file's matchups, in its order. get_matchup(id): the matchup with that id, or KeyError if there's none. get_matchups: all of them by id. get_matchup_results(id): exactly the results saved in the status file for that id; they are of different games of that matchup, each with its game_id set. get_matchup_stats(id): never fails for a matchup in the control file, and the statistics are those of these results: wins (a jigo counting half) and unknown results add up to the total, forfeits, games and wins by colour, who always had which colour if the colours didn't change, and the average of the known CPU times. The calls don't change anything, except that asking for results with an id which isn't in the control file adds an empty entry; if the status is then saved, it can't be loaded again. get_tournament_results fails with 'status is not loaded' or 'competition is not a tournament' exactly in those cases.", "quantifier": "every accepted control file of a playoff or all-play-all, every history of runs (schedules, crashes, failures, control files), every sequence of calls with any ids", "why_tests_cant": "It is about every history of results and every sequence of calls, including the effect of calls on each other through the shared defaultdict.", "anchors": ["gomill/tournament_results.py:Tournament_results", "gomill/tournament_results.py:Matchup_stats", "gomill/tournaments.py:Tournament.get_tournament_results", "gomill/ringmasters.py:Ringmaster.get_tournament_results", "gomill/ringmasters.py:Ringmaster.load_status"]}
{"id": "C92", "title": "A GTP session answers every command, in order, until it ends, whatever the engine and the files do", "statement": "run_gtp_session reads its input line by line (the last line may lack its newline, which makes no difference) until the end of the input, a command whose handler asks to end the session (GtpQuit, GtpFatalError, or any other exception if these were made fatal), or a failing write. Every line which asks for a command has that command run once, with its arguments, and its response written and flushed before the next line is read; other lines get no response and run nothing. After a quit nothing more is read. A write or flush which fails with EPIPE ends the session with ControllerDisconnected carrying the same arguments, any other exception passes through as it is, and no command after the one being answered is run. What has been written never depends on input still to come. run_interactive_gtp_session does the same if stdin isn't a terminal, and has the same effects and answers if it is; readline's completer and delimiters are restored and the history saved if it ends normally. The handler used for a command is the one last registered and not since removed, also when handlers change the table themselves; list_commands is sorted and lists exactly the registered commands; known_command, protocol_version and quit answer accordingly; effects of a handler remain even if it fails. The readline completer enumerates exactly the commands starting with the text typed. GTP booleans are exactly 'true' and 'false'; GTP integers are clipped to -1..2^31-1.", "quantifier": "every engine (any handlers, changing any state or the handler table), every input, every behaviour of the output file, every moment", "why_tests_cant": "It ranges over all inputs, all handlers with state, and all points at which a write can fail.", "anchors": ["gomill/gtp_engine.py:_run_gtp_session", "gomill/gtp_engine.py:run_gtp_session", "gomill/gtp_engine.py:run_interactive_gtp_session", "gomill/gtp_engine.py:make_readline_completer", "gomill/gtp_engine.py:Gtp_engine_protocol", "gomill/gtp_engine.py:interpret_boolean", "gomill/gtp_engine.py:interpret_int"]}
{"id": "C93", "title": "The MCTS tuner explores the whole parameter space, whatever the games' results", "statement": "Each simulation goes, at every node on its way, to one of the children of greatest UCT urgency (as determined by the results reported before it was chosen), and stops at a node nobody has been through or at the greatest depth. Consequently, with a positive exploration coefficient, no part of the parameter space is neglected: for every N there's a number of games after which every cell of every generation of the tree has had at least N visits, so at least N games have been played with parameters from the smallest cell around any point of the parameter space. This holds whatever the results (an adversary may choose them), whatever the random choices, the order in which games finish, the failures, the restarts and crashes, and for any number of workers. With a zero coefficient it's false.", "quantifier": "every configuration with a positive exploration coefficient, every N, every sequence of results, failures, saves, crashes and restarts, every schedule of at most 1023 workers, every random choice", "why_tests_cant": "It's a statement about the limit of adversarial infinite histories; a run of any length shows only what happens for one sequence of results and random numbers.", "anchors": ["gomill/mcts_tuners.py: Simulation._choose_action, Simulation.walk, Simulation.run, Simulation.update_stats", "gomill/mcts_tuners.py: Tree.is_ripe, Tree.expand, Node.recalculate", "gomill/mcts_tuners.py: Mcts_tuner.get_game, Mcts_tuner.process_game_result", "gomill/job_manager.py: Multiprocessing_job_manager.run_jobs"]}
{"id": "C94", "title": "Exactly which GTP commands a stateful engine carries out, refuses, or breaks on", "statement": "An engine made from a Gtp_state answers each of the state's commands, whatever was sent before (successful or not), with success just when: boardsize: an integer among the acceptable sizes; clear_board: always; komi: a finite number; fixed_handicap: the board is empty and there's a layout for that many stones (at least 2; at most 4 on even and 9 on odd sizes, none outside 8 to 25); set_free_handicap: at least 2 and fewer than size\u00b2 different vertices on an empty board; place_free_handicap: between 2 and size\u00b2-1 on an empty board of size 8 to 25; play: a colour and a pass or the vertex of an empty point; genmove, gomill-genmove_ex, reg_genmove: a colour, and the move generator's answer is a claim (if one was allowed), a resignation, a pass or a move to an empty point; undo: there is a move to take back; loadsgf: the file can be read and parsed, its size is acceptable, it has a valid komi and setup, and each of its moves before the given move number is to an empty point; time_left and time_settings: the right kinds of argument. It gives an internal error just when the move generator raised an exception or returned nonsense, or (a bug) for place_free_handicap on a board with no fixed handicap layouts. Everything else is refused with an ordinary error. Internal errors end the session just when handler exceptions are fatal; nothing else in the state's commands ends it. boardsize and clear_board leave an empty board and no history; showboard's answer can be read back as the position on the board; place_free_handicap records as handicap (a bug) the number asked for even if fewer stones are placed. This holds at every point of any session, for any input.", "quantifier": "every history of commands, every argument list, every move generator (which may differ from command to command), every set of files, every session input and output file", "why_tests_cant": "The state space (positions \u00d7 histories \u00d7 settings) and the argument strings are unbounded; the iff includes every malformed input and every history.", "anchors": ["gomill/gtp_states.py: Gtp_state.handle_boardsize, handle_clear_board, handle_komi, handle_fixed_handicap, handle_set_free_handicap, handle_place_free_handicap, handle_play, handle_showboard, _handle_genmove, handle_undo, handle_loadsgf, handle_time_left, handle_time_settings", "gomill/gtp_engine.py: Gtp_engine_protocol.run_command, interpret_int, interpret_vertex, interpret_colour", "gomill/handicap_layout.py: max_fixed_handicap_for_board_size"]}
{"id": "C95", "title": "The ringmaster's log, its messages, and graceful stopping, for any competition", "statement": "Whatever the competition, the user and the operating system do: every game started is logged as it starts; a response's warnings (also shown at once) and log entries are logged before the competition sees its result, even if the competition then fails; just after a result or a void game is processed the status file is written, and only then is the result shown; every void game's error is logged and shown; the status file is written at no other time; a halt is logged once with its reason, and a run doesn't halt without one. With --quiet only warnings (on stderr) and the acknowledgement of Ctrl-X are shown. When asked for a job, a ringmaster which isn't stopping decides to stop just when: Ctrl-X is among the characters typed (and the process is in the foreground, and the terminal can be read); or else the command file's contents are exactly 'stop' (which is then removed); or else --max-games is reached; it then starts no game, and a stopping ringmaster never starts another, looks at the terminal or removes the command file. After every call the terminal is back in its original mode, unless restoring it failed. The games, status files and competition states are those of C88's runs. At the end the log says so; after an exception also which games were in progress.", "quantifier": "every competition, every sequence of get_job/process_response/process_error_response calls (in particular those of the job managers under every schedule and crash point), everything typed, every command file, every failure of the terminal, the command file and the status file", "why_tests_cant": "The order of log entries, status-file writes and messages must hold at every crash point of every schedule, for every competition and every sequence of characters typed.", "anchors": ["gomill/ringmasters.py: Ringmaster.log, warn, say, log_history, _halt_competition, get_job, _get_job, process_response, process_error_response, run", "gomill/ringmaster_presenters.py: Quiet_presenter, Presenter", "gomill/terminal_input.py: Terminal_reader"]}
{"id": "C96", "title": "What the ringmaster's screen shows", "statement": "Without --quiet, when a run starts and each time the ringmaster is asked for a job, the screen is cleared and then shows: if the run is stopping, the reason which was logged (and that it's waiting for the workers, if there are workers and games in progress); the ids of the games in progress, sorted and without repetition, which are the games the workers have or which are queued; if it isn't stopping, how many more games it will start, and how to stop it if it can be stopped from the terminal; the number of void games there have ever been in the competition, if any, and the competition's report (less its last newline); the last six results and the last four warnings of this run. The number of games left is the --max-games given less the number of times a game was looked for (even if there was none); it is never negative unless the number given was, and then there's no limit. If the screen can't be cleared with `clear` and the environment variable LINES is set, the run ends with a TypeError (a bug).", "quantifier": "every competition, every history of a run (every schedule of the job managers), every --max-games, number of workers, terminal", "why_tests_cant": "The screen is a function of the whole history of the run; it must be right after every history and for every competition's report.", "anchors": ["gomill/ringmasters.py: Ringmaster._update_display, _get_job", "gomill/ringmaster_presenters.py: Clearing_presenter, Box"]}
{"id": "C97", "title": "Tournaments run by the ringmaster: the results, the history file and the game ids", "statement": "A tournament run by the ringmaster behaves as the generic competition of C88-C90 and C95-C96 with the tournament's own methods, and also as the system of C36-C47: state, status file, games in progress and to be retried, queues and calls are the same. In any run, after any earlier runs with any control files and any crashes: the history file gets exactly one line for each result the tournament accepts, in that order, made of the game id (right-justified to seven characters), a space, and the description of the result, and nothing else; the tournament's results for each matchup are those which were in the status file at the start of the run followed by those accepted in this run, in order, and so are those in the status file, except that after an exception the last one may be missing; and the results accepted in a run have different game ids, none of which is the id of a result from an earlier run.", "quantifier": "every control file, every history of earlier runs and crashes, every schedule of the workers, every environment (what is typed, the command file, the failures of the disk, the terminal and the screen)", "why_tests_cant": "The correspondence between the history file, the status file and the tournament's results has to hold at every point of every schedule and after every crash.", "anchors": ["gomill/tournaments.py: Tournament.get_game, process_game_result, process_game_error, write_screen_report, get_status, set_status", "gomill/ringmasters.py: Ringmaster.log_history, process_response, run", "gomill/gameplay.py: Game_result.describe"]}
{"id": "C98", "title": "The kgs_proxy.py example: a transparent proxy which saves a record of each game", "statement": "Every command other than genmove and kgs-game_over gets exactly the reply, and has exactly the effect, which the plain GTP proxy (C61) gives. genmove with a valid colour (b, w, black, white in any case) sends the same genmove to the back end, gives its response, and is remembered; genmove with no or a bad colour fails with nothing sent; if the back end fails, so does the command. The remembered colour is always that of the last valid genmove. kgs-game_over without --sgf-dir does nothing; with it, the back end gets exactly one gomill-savesgf command, with the first free pathname of the directory, and PB= or PW= (by the remembered colour) with the back end's name and version if both are known; a failure of that command doesn't fail kgs-game_over; if all 10000 names are taken or the directory can't be read it fails and nothing is sent; no existing file is ever named. If the name has no space (and no backslash followed by underscore), and the back end is a gomill engine, then the file written loads as the game played with that player's name. A name with a space is never saved: the command always fails and nothing is sent (the script escapes a space as backslash-space, which isn't a valid argument, where gomill-savesgf wants backslash-underscore). It starts only if the back end answers, and knows gomill-savesgf if --sgf-dir was given; the name is the response to name and, after a colon, at most 32 characters of the response to version.", "quantifier": "every back end (any channel), every sequence of commands and arguments, every content of the directory, every file name template", "why_tests_cant": "The colour depends on the whole history of commands, and the back end may answer anything.", "anchors": ["gomill_examples/kgs_proxy.py: Kgs_proxy.run, initialise_name, handle_genmove, choose_filename, handle_game_over", "gomill/gtp_proxy.py: Gtp_proxy", "gomill/gtp_states.py: Gtp_state.handle_savesgf"]}
{"id": "C99", "title": "The example scripts show_sgf.py, split_sgf_collection.py and find_forfeits.py do what they say", "statement": "show_sgf prints the diagram of the position after the setup and the moves of the main line before the given move number (all of them if there's none), if the file can be read as SGF, its setup and moves can be used, every move shown is legal and the board is at most 25x25; otherwise it prints no diagram and gives the message for what's wrong. The diagram can be read back to the position. It's the same diagram as a GTP engine with a Gtp_state gives for showboard after loadsgf with the same file and move number; and loadsgf succeeds when show_sgf does, if the size is acceptable and the komi can be read. split_sgf_collection writes one file for each game of the collection, in order, with the game's number before the extension in the same directory (so the collection itself is never overwritten, nor a game by another), up to the first game which can't be loaded, or whose root comment can't be read, or encoded with the new text; each file read back has the game's size, encoding, nodes and properties, except that the root's comment has 'Split from <name> (game <n>)' added after the old comment. find_forfeits, whatever the history of the tournament, prints just one line for each saved result which was a forfeit, in the order of the matchups and of the results, with the matchup's name, the player (of that matchup) who forfeited and the name of the game record.", "quantifier": "every file, move number, encoding and collection; every history of a tournament", "why_tests_cant": "The scripts must agree with the library for every SGF file, and for every history of runs of a tournament.", "anchors": ["gomill_examples/show_sgf.py: show_sgf_file", "gomill_examples/split_sgf_collection.py: split_sgf_collection", "gomill_examples/find_forfeits.py: show_result, find_forfeits", "gomill/gtp_states.py: Gtp_state.handle_loadsgf, handle_showboard", "gomill/tournament_results.py: Tournament_results"]}
{"id": "C100", "title": "gomill-clop plays the game CLOP asks for and prints who won it; anything that goes wrong is printed as an error", "statement": "gomill-clop accepts a control file exactly when its settings describe a CLOP tuner: the players, the rules of the game, the candidate's colour, the opponent, the parameters (with different codes; those of integer types have integer bounds), and make_candidate; other problems are reported as errors in the control file. For run-game, CLOP's arguments are the processor, the seed and the names and values of all the parameters in the control file's order, each a number of the right kind. The game is then between the player which make_candidate gives for these values, with the colour from the control file and code '#' followed by the seed, and the opponent, with the control file's rules; its id is the seed. Exit status 0 means that the game was played and what's printed says who won it: 'W' for the candidate, 'L' for the opponent, 'D' for neither (only if it was a jigo, or stop_on_error is set). Otherwise 'Error' is printed, so CLOP won't take it for a result. setup writes a .clop file with the name, the command to play a game, a line for each parameter and processor and the options, beside the control file.", "quantifier": "every control file, file system, command line, make_candidate function and pair of engines", "why_tests_cant": "A game reported the wrong way round, or an error taken for a result, quietly spoils an optimisation; it must hold for every control file, argument list and way a game can go.", "anchors": ["gomill_examples/gomill-clop: Parameter_config, Clop_tuner.initialise_from_control_file, parameter_spec_from_config, interpret_clop_parameters, make_candidate, get_game, Clop_ringmaster, do_setup, do_run_game, prepare_job, main", "gomill/ringmasters.py: Ringmaster.__init__, get_job, _prepare_job", "gomill/game_jobs.py: Game_job.run"]}
{"id": "C101", "title": "twogtp plays the games it was asked for between the two engines, and prints and stores what happened in each", "statement": "If both engines can be started and are well-behaved, twogtp plays --games games between the same two engine processes, whose protocol version and description it has asked for, each with the size and komi from the options, from an empty board by the rules of go, with Black first, until two passes, a resignation, a forfeit or 1000 moves. For each game it prints the moves in order (colour and vertex with --verbose=1, and with --verbose=2 also a diagram of the position after the move), and then the result, which names the players and says who won: the one the ending says, or, after two passes, the one which all the engines that gave a score (both are asked) agreed on. No engine is asked to claim a win. With --sgfbase the game is written to a file numbered from 000. At the end both engines are closed; the exit status is 0 if there were no late errors, and otherwise the late errors are shown. If an engine can't be started, or fails during a game, the reason is shown, all the engines that were started are closed, and the games completed before then have been printed and written. The player codes always differ, even if the same command is used for both players. Whatever the engines say, the program finishes.", "quantifier": "every pair of commands and options with a board size from 2 to 25, every behaviour of the engines, and every set of files which can be opened", "why_tests_cant": "The same engine processes are used for all the games, so what one game leaves behind could affect the next; it must hold for every number of games, every sequence of moves and every point at which an engine can fail.", "anchors": ["gomill_examples/twogtp: main, print_move, print_board, write_sgf", "gomill/gtp_controller.py: Game_controller.set_player_subprocess, set_player_controller, close_players, describe_late_errors", "gomill/gtp_games.py: Gtp_game.prepare, run, allow_scorer, set_move_callback", "gomill/ascii_boards.py: render_board"]}
{"id": "C102", "title": "The SGF files written by twogtp are records of the games it played", "statement": "Suppose that the engines' responses are UTF-8 without carriage returns. Each file that twogtp writes with --sgfbase is numbered from 000 in the order of the games, and it's an SGF file which can be read back: the main line's moves are the moves of that game, in order, from an empty board of the size asked for, and it has the komi, no handicap, the result of the game (RE), the names of the two engines (the player's code if an engine gives none), 'Gomill twogtp' and the version as the application, and as comments the explanations that the engines gave for the moves, with the final message of an engine which resigned or forfeited, the scores given by engines which disagreed and the description of the result at the last move. No traceback comes from making or writing a record: tracebacks come only from commands that can't be split into words, from engines that say they use a GTP version other than 2 (or give a version that ends with whitespace), and from margins which are infinite or not a number.", "quantifier": "every pair of commands and options with a board size from 2 to 25, every number of games, and every behaviour of engines whose responses are UTF-8", "why_tests_cant": "Any text an engine sends (names, explanations, messages) is put into the file, and it must come back for every such text, every sequence of moves and every number of games.", "anchors": ["gomill_examples/twogtp: main, write_sgf", "gomill/gtp_games.py: Gtp_game.make_sgf", "gomill/sgf.py: Sgf_game.serialise, from_string"]}
{"id": "C103", "title": "The example engine gtp_stateful_player plays legal Go at random, and nothing sent to it breaks it", "statement": "At any time, whatever commands it has been sent, the engine has exactly the 22 commands it was given, and its board size is 9, 13 or 19. Asked for a move (genmove, gomill-genmove_ex, reg_genmove) with a valid colour, it resigns if the random number is less than the resign probability, and otherwise answers with the vertex of a point that random.choice picks from exactly the empty points of the current position, each listed once; there is always one, so the command never fails. With reg_genmove nothing is played; otherwise the stone is played by the rules and recorded with the comment 'chosen at random from N choices', N being the number of empty points, and that's what gomill-explain_last_move answers. A resignation changes nothing. gomill-resign_p sets the probability, or fails and changes nothing; with 1 or more it always resigns, with 0 or less never. Every command of its game state gets a success just when it should succeed, and otherwise an error (never an internal error) which doesn't end the session. In a whole session each answer is the answer to one of the lines read by an engine to which all this applies, and the session ends only at the end of the input, on quit, or if an answer can't be written.", "quantifier": "every sequence of commands with any arguments and ids, every outcome of the random functions, every behaviour of the files outside, and every failure to write an answer (if each SGF file that can be read with an acceptable size has a valid komi, setup and moves: C94)", "why_tests_cant": "It plays at random, on a position which depends on everything it was sent before; and the claim is that nothing at all breaks it.", "anchors": ["gomill_examples/gtp_stateful_player: Player, make_engine, main", "gomill/gtp_states.py: Gtp_state", "gomill/gtp_engine.py: Gtp_engine_protocol, run_interactive_gtp_session"]}
{"id": "C104", "title": "The example engine gtp_test_player produces exactly the errors it's asked for, when it's asked for them", "statement": "Whatever commands it has been sent, the engine has the same 13 commands. gomill-force_error causes the error its first argument names: a GTP error (also with no argument), a GTP error which ends the session, an internal error, the end of the process, or an ill-formed line written to stdout before the answer; any other argument is an error which says so. Apart from delayed errors genmove always answers pass. gomill-delayed_error with an integer k other than 0 causes the error named by its remaining arguments at the first genmove which is move k or later, and only there, unless a later gomill-delayed_error replaces it; k = 0 cancels. Moves are the genmove and play commands, whatever their arguments, counted from when the program started: clear_board and boardsize don't start the count again (the documentation says they're counted from the start of the game). A gomill-delayed_error without an integer fails and changes nothing. The other commands succeed whatever their arguments.", "quantifier": "every sequence of commands with any arguments", "why_tests_cant": "When a delayed error happens depends on the whole sequence of commands before it.", "anchors": ["gomill_examples/gtp_test_player: Test_player, make_engine", "gomill/gtp_engine.py: Gtp_engine_protocol.run_command"]}
{"id": "C105", "title": "The example mogo_wrapper.py is a transparent proxy apart from version and boardsize", "statement": "If the first argument isn't --9, --13 or --19 the program stops with a message, having sent nothing. Otherwise it asks the back end for its list of commands and sends it boardsize with that size; it runs if both succeed, and otherwise an exception is raised. While it runs, whatever it has been sent, version answers '2007 public release' and boardsize succeeds just when its first argument is the size the program was started for (the text, not the number), and otherwise is an error which says why; neither sends anything to the back end or changes anything. It has those two commands, the proxy's own five, and the commands the back end listed at the start; the last, unless they are one of the others, are sent on to the back end as C61 says.", "quantifier": "every list of command-line arguments, every back end, every sequence of commands with any arguments", "why_tests_cant": "It must hold whatever the back end does and whatever was sent before.", "anchors": ["gomill_examples/mogo_wrapper.py: main, handle_version", "gomill/gtp_proxy.py: Gtp_proxy.set_back_end_controller, pass_command", "gomill/gtp_engine.py: Gtp_engine_protocol.add_command"]}
