# A Lean 4 model of gomill

Layout of `/verif/lean/Verif/`:

* `Model/*.lean` – the model, one file per Python module or part of one (function by function; each definition cites
  the lines of `/repo` it models, and says where it simplifies);
* `Spec/*.lean` – small specifications, written without reference to the model's helpers;
* `Lemmas/*.lean` – helper lemmas;
* `Props/*.lean` – the property theorems (the ones named in `MANIFEST.json`, all called `Cnn_...`), with
  non-vacuity witnesses beside them (`Cnn_witness`, or `example`s).

## Trusted base

* Lean 4.33.0's kernel.
* Axioms: at most `propext`, `Classical.choice`, `Quot.sound` (checked with `#print axioms`).
  No axiom is added; no proof uses compiled evaluation.
* The faithfulness of the reading of the Python source: the code is not run here. Python 2 semantics is
  assumed (`/repo` is Python 2 code): integers are unbounded, `str` is a list of bytes, comparison of an
  int with `None` is defined (`None` is less than every int).
* Mathlib is used for lemmas only (lists, order, rationals, reals, `Finset`).

## General modelling conventions

* A Python exception is a value (`Except`), so "raises" is visible in the types. Exceptions are identified by class;
  messages are not modelled, except where the message is itself the observable (GTP error responses are
  modelled as an abbreviated text).
* A mutating method is a function returning the new state; a method which can raise *after* it changed something
  returns both the new state and the exception (`Upd`, `Game`, `GS.step`).
* A Python `set` is a duplicate-free list, or a membership predicate where only membership matters; code which
  depends on the order of `set.pop()` or dict iteration is modelled with the order as a parameter,
  so theorems hold for every order.
* Byte strings are `List Char`; Python regular expressions are hand-translated to matchers, documented where they occur.
* Floats are exact rationals (scores, komi, MCTS parameters) or reals (LOG scale). Rounding is not modelled. Reading and
  printing floats (`float(s)`, `repr(f)`, `'%g'`) are parameters, with the laws used stated as hypotheses (`FloatsOK`)
  and shown to be satisfiable.
* Unbounded `while` loops have a fuel parameter; sufficiency of the fuel is proved, and is part of the
  termination theorems.

## What is modelled, per property

| Property | Code | Model and specification | Method |
|---|---|---|---|
| C01, C02 | `competition_schedulers.py` `Simple_scheduler` | `Model/Schedulers`; histories of issue/fix/rollback/pickle; `Spec/Schedulers` computes the expectation from the log of calls | invariant over histories |
| C03, C04 | `Group_scheduler` | same, with `set_groups` at any time. C04's claim is false for unlimited groups (refuted by a reachable witness; the exact behaviour is proved) | invariant, order of candidates |
| C05–C11 | `boards.py` | `Model/Board`: grid, flood fills as worklists with an arbitrary pop order; `Spec/Go`: connectedness as a reflexive-transitive closure, legality, captures | worklist invariants; legality as an invariant of play/apply_setup |
| C12 | `ascii_boards.py` | `Model/AsciiBoard`: rendering and interpretation as strings | positions with fewer stones of a legal position; index arithmetic |
| C13, C14 | `common.py`, `gtp_states`-style vertex lists | `Model/Vertex`, `Model/Text` (int(), str(), strip, split, lower) | case analysis, digits lemmas |
| C15 | `handicap_layout.py` | `Model/Handicap` | case analysis over the patterns, for all sizes |
| C16–C18 | `sgf_grammar.py` (tokeniser, parser, serialiser, block_format) | `Model/SgfGrammar`; `Spec/Sgf` | induction on trees and on input |
| C19–C22 | `sgf_grammar.py` values, `sgf_properties.py` | `Model/SgfText`, `Model/SgfProps`; `Spec/SgfText`, `Spec/SgfCodec` | induction on strings |
| C23–C25 | `sgf.py` trees | `Model/SgfTree`: heap of mutable nodes, compared by identity; `Spec/SgfTree`, `Spec/SgfEdit` | heap invariants over all edit histories |
| C26–C28 | `gameplay.Game` | `Model/Game`; histories of record_move/resign/claim/forfeit | invariant over histories |
| C29, C30 | `gameplay.adjust_score`, `Game_score`, `gtp_games.Gtp_game_result`/`Game_result` | `Model/Game` | arithmetic; case analysis |
| C31 | `gameplay.Game_runner` | `Model/GameRunner`; the backend is an arbitrary state machine; `Spec/MoveCallback` for the calls of the callback | induction on the run |
| C32, C33, C44 | `gtp_engine.py`, `gtp_controller.py` | `Model/GtpEngine`, `Model/GtpChannel`; `Spec/Gtp`: words of a line | string induction; sessions by induction on the commands |
| C34, C35 | `gtp_states.py` | `Model/GtpState`: 15 handlers, on top of Board and SGF models; move generator and file system are parameters | invariant over command histories |
| C36, C45–C47 | `tournaments.py`, `ringmasters.py` (run loop), `job_manager.py`, schedulers, status file | `Model/Tournament`, `Model/Ringmaster`; events: start (any control file), manager and worker steps, outcomes, crash, end | global invariant over all event sequences |
| C37–C40 | `tournaments.py`, `tournament_results.py`, `allplayalls.py`, `playoffs.py`, `competitions.py` | `Model/Tournament`, `Model/TournamentResults` | counting lemmas |
| C41 | `job_manager.py` | `Model/JobManager`: small-step, arbitrary interleaving; in-process manager too | invariant; decreasing measure for termination |
| C42, C43, C48, C49 | `mcts_tuners.py` | `Model/Mcts`, `Model/LogScale`; `Spec/Mcts` | tiling by induction on paths; invariant over histories of games, saves and restarts |
| C50, C51 | `sgf_properties.Presenter`, `sgf.Node` | `Model/SgfNode`; `Spec/SgfNode` | per-type round trips; invariants of any method sequence |
| C52, C53 | `sgf.Sgf_game` | `Model/SgfGame`: any number of games sharing one heap, `serialise`, `from_string`, encodings; `Spec/SgfGame` | session invariant + C16 + C24; transcoding lemmas |
| C54 | `sgf.py` main sequence, `sgf_moves.py` on whole games | `Model/SgfRecord` | session invariant, C51, C09, C52 |
| C55 | `gameplay.py` Game_runner.make_sgf after run, `sgf.py` get_komi/get_handicap/get_winner | `Model/SgfRecord`, `Model/GameRunner` | run invariant (texts), construction invariant `At`, C31, C52, C54 |
| C56 | `gtp_states.py` handle_savesgf (with handle_loadsgf) | `Model/GtpSave`, `Model/GtpState` | construction invariant `At`, C34 invariant over commands, C52, C54 |
| C57 | `gtp_controller.py` Gtp_controller, Internal_gtp_channel | `Model/GtpController`; `Spec/GtpController`: calls, and a log of what happens on the channel | relation `Later` between the controller before and after, preserved by every call |
| C58 | `gtp_controller.py` Game_controller; `gtp_games.py` _Gtp_backend, Gtp_game | `Model/GtpGame`; `Spec/GtpGame`: `Ready`, `Sound`; `Spec/MoveCallback` | `Lemmas/GameRule`: a rule for `Game_runner.run` with a backend that keeps an invariant; the GTP backend keeps `GCOK` |
| C59 | `gtp_games.py` _score_game_gtp, Gtp_game_score | `Model/GtpGame`; `Spec/GtpGame`: `Says`, `Unanimous` | case analysis of the votes |
| C60 | `gtp_controller.py` Linebased_gtp_channel.get_response_impl | `Model/GtpChannel`; vocabulary at the head of `Props/GtpRead` | decomposition of the stream into lines, induction on them; C60_total shows the cases exhaust all streams |
| C61 | `gtp_proxy.py` Gtp_proxy, `gtp_engine.py` handler table and protocol commands | `Model/GtpProxy`; Asks, QuitReply, WellBehaved in `Props/GtpProxy` | case analysis of the controller's outcomes; session by induction on the lines (simulation between proxy and back end) |
| C62 | `gtp_states.py` settings commands, _handle_genmove, get_last_move; `gtp_engine.py` interpret_* | `Model/GtpState`; `Spec/GtpTold`; AnswerSpec in `Props/GtpTold` | frame lemma for each command, induction over the commands; case analysis with C06 for the answer |
| C63 | `gtp_games.py` backend over `gtp_controller.py` controllers; `gameplay.py` Game_runner | `Model/GtpGame`, `Model/GameRunner`; `Spec/GameTrack`, `Spec/GtpTranscript` | a generic induction over the runner (`run_tracks`) with a phase (who has been asked or told what), instantiated with the log of recording channels; case analysis for the replies |
| C64 | `gtp_states.py`/`gtp_engine.py` engines over internal channels, `gtp_games.py`, `gameplay.py` | `Model/GtpPlayer`; `Spec/GtpLockstep` | the Tracks rule of C63 with the invariant that each engine's state is the replay of the moves it knows (Inv of C34); text round trips for vertices and handicap lists; `C64_lockstep`, `C64_no_disputes` |
| C65 | `cem_tuners.py` update_distribution, finish_generation | `Model/Cem`; `Spec/Cem` | algebra on rationals (variance = E[x²] − E[x]²), the sort is a sorted permutation; tied to histories by the invariant of C66 |
| C66 | `cem_tuners.py` Cem_tuner with `ringmasters.py` | `Model/Cem` (Sys); `Spec/Cem` | an inductive invariant (`Core`, `RunInv`, `SavedInv`) relating the scheduler and wins to a log of games; digits and separators make game ids injective |
| C67 | `sgf.py` get_player_name, get_winner, get_komi, get_handicap, set_date, find_property | `Model/SgfNode`, `SgfRecord`, `SgfInfo`; `Spec/SgfInfo` | from C50 (set and get) and the forest invariant (C25); digit lemmas for dates |
| C68 | `gtp_controller.py` Engine_description | `Model/EngineDesc`; `Spec/EngineDesc` | stating UTF-8 validity as a list predicate and showing that cutting at ASCII characters preserves it; the search functions against `Before`, `FirstWord` |
| C69 | `game_jobs.py` `_make_sgf`, `_record_game`, `_record_void_game`; `gtp_games.py` `make_sgf`, `describe_scoring` | `Model/GameJob`; `Spec/GameJob` | an invariant (`Annot`) of the main sequence while properties and comments are added to the record of C55, then the round trip C54 |
| C70 | `game_jobs.py` `Game_job.run` etc. | `Model/GameJob`; `Spec/GameJob` (`openAfter`, `written`, `started`, `Trouble`) | case analysis of the run (`Ran`) with an invariant of the trace (`Going`); constancy of codes through the game (`playGame_texts`) |
| C71 | `game_jobs.py` `Game_job.run` with everything below it | `Model/GameJob` and all it uses; `JobDone`, `GoodJob`, `CanWrite` (`Props/JobTotal`) | C58 (which exceptions a game can raise), text classes through controllers and games, C69 for the files, C70 for the order of events |
| C72 | `game_jobs.py` `check_player` | `Model/GameJob` `checkPlayer`; `Spec/PlayerCheck` (`Accepts`, `Declines`, `Passes`, `Fails`) | case analysis over the sequence of exchanges, with an invariant of the controller (`Calm`); C57 |
| C73 | `settings.py` | `Model/Settings`; `Spec/Settings` (`Gets`, `Missing`, `Invalid`, `Interprets`, `GoodArguments`) | induction on the list of settings/arguments/values; case analysis of the values |
| C74 | `competitions.py` players | `Model/Settings` `playerFromConfig`, `initCompetition`; `Spec/Settings` `PlayerOf` | C73 for each setting, in both directions |
| C75 | `playoffs.py`, `tournaments.py` Matchup, `competitions.py` game settings | `Model/Playoff`; `Spec/Playoff` `MatchupOf`, `Makes`, `GlobalsOK`, `WithClones`, `CheckFor` | C73 for each setting; induction on the list of matchups, with the clones made so far; each direction separately |
| C76 | `allplayalls.py` control files and player checks | `Model/Allplayall`; `Spec/Allplayall` `RulesOf`, `CompetitorIs`, `shortNames`, `allPairs`, `pairMatchup` | C73 for each setting; induction on the list of competitors; the result is shown to be the one of C39, so C36, C37, C39, C45 to C47 apply |
| C77 | `ringmasters.py` `__init__` and reading the control file | `Model/ControlFile`; `Spec/ControlFile` `Located`, `Ext`, `TypeOf`, `Interpreted`, `Describes`, `Refusal` | `os.path.split` and `splitext` characterised by their relational specs (both directions); the regular expression by its grammar; each stage of loading by cases |
| C78 | `ringmasters.py` `delete_state_and_output`, `_prepare_job` | `Model/RingFiles`; `Spec/RingFiles` `OsOK`, `Below`, `PreparedJob` | the pathnames of C77 are different and not below each other, so each removal can be followed on its own; records from C70 |
| C79 | `ringmasters.py` `_open_files`, `_close_files` | `Model/RingFiles` `openFiles`; `Spec/RingFiles` `Session`, `Happens`, `Reach` | each step of opening characterised; invariant over sessions: every run holds the lock on its log file, every lock is held by a run, a file has one pathname |
| C80 | `ringmaster_command_line.py`; `ringmasters.py` `check_players`, `load_status` | `Model/CommandLine`; `Spec/CommandLine` `Replays`, `histories`, `AsksFor` | each action's histories composed from those of its parts; checks by induction using C72; status by cases |
| C81 | `ascii_tables.py` | `Model/Table`; `Spec/Table` `Layout`, `Tight`, `ShowsRow`, `ShowsHeadings` | positions as prefix sums of widths and paddings; induction over columns and over headings |
| C82 | `tournament_results.py`, `tournaments.py`, `playoffs.py`, `allplayalls.py` reports; `utils.py` | `Model/Reports`; `Spec/Reports` `HasColumns`, `resultColumns`, `IsBlock`, `IsCross`, `Printed` | tables are built column by column, keeping an invariant; then C81; C75/C76 for the facts about accepted control files |
| C83 | `cem_tuners.py:88-233`, `mcts_tuners.py:405-639`, `settings.py:100-125` | `Model/TunerConfig` `initCem`, `initMcts`; `Spec/TunerConfig` `CemOf`, `MctsOf`, `CemParamIs`, `MctsParamIs` | C73's interpreters and load_settings, setting by setting; induction over the parameters; error cases separately |
| C84 | `cem_tuners.py:294-441`, `mcts_tuners.py:682-785` | `Model/TunerConfig` `CemTuner.candidate`, `MctsTuner.candidate`, `TunerBase.job`; `Spec/TunerConfig` `CandidateIs`, `CandidateFails`, `ShownAs`, `TunerJob` | induction over the parameters; C74 for players; C83 for the facts about accepted control files |
| C85 | `ringmaster_command_line.py:29-47`, `ringmasters.py:408-438, 494-498`, with the code for C36, C75, C76, C82 | `Model/FullRun` `reportPlayoff`, `reportAllplayall`; `Spec/FullRun` `PlayoffReport`, `AllplayallReport`, `TotalIs`, `SameRuns` | composition: invariants of the histories (C36), control files (C75, C76), reports (C82); `Lemmas/RunComp`: each saved result is of a job of a control file in use |
| C86 | `mcts_tuners.py:120-158, 206-285, 331-385, 796-861` | `Model/MctsReports` `mainReport`, `screenReport`, `shortReport`, `describeTree`, `resultTexts`, `runNodeCount`; `Spec/MctsReports` `MainReport`, `SummarySection`, `BestPath`, `TreeText`, `InProgress` | the tuner's invariant (C43) gives the statistics of each node as counts of completed simulations; generations of the tree by induction on the depth; stable sorting; sizes by counting paths |
| C87 | `cem_tuners.py:48-58, 368-389, 410-460, 474-526` | `Model/CemReports` `screenReport`, `shortReport`, `historyTexts`, `resultHistory`, `startingEvent`, `jobNote`; `Spec/CemReports` `ScreenText`, `HistoryText`, `DistText` | the system's invariant (C66) gives wins as points in the games played; sorted order of the sorter (C65); induction over the lines |
| C88 | `ringmasters.py:383-449, 508-706`, `competitions.py:290-394`, `job_manager.py:146-191` | `Model/RingAny` `Competition` (any), `RM`, `source`, `World`, with a record of the calls; `Spec/RingAny` `InOrder`, `playing`, `waiting`, `failures`, `statusFile` | invariant relating the ringmaster's dicts to the record, preserved by every step of the job manager; simulation of the in-process manager by one worker |
| C89 | `mcts_tuners.py:649-680, 752-820`, `ringmasters.py:383-449, 508-706`, `job_manager.py` | `Model/MctsRing` `tunerCompetition` (an instance of `Competition`); `Spec/MctsRing` `Matches`, `Recorded`; `Spec/RingStory` `earlierRuns` | every call of the ringmaster on the tuner is simulated by a step of C43's system; invariant of histories (`story_holds`), then C43's theorems |
| C90 | `cem_tuners.py:252-292, 368-471`, `ringmasters.py:383-449, 508-706`, `job_manager.py` | `Model/CemRing` `tunerCompetition` (an instance of `Competition`); `Spec/CemRing` `candidateScore`, `scores`; `Spec/RingStory` `earlierRuns` | every call of the ringmaster on the tuner is simulated by steps of C66's system (`CInv`); invariant of histories (`story_holds`), then C66's theorems |
| C91 | tournament_results.py:47-97, tournaments.py:316-318, competitions.py:429-444, ringmasters.py:408-449, 478-492 | Model/ResultsApi; Spec/ResultsApi (Right, StatsOf, AcceptedTournament) | invariant of the object over sequences of calls (what the defaultdict gives is unchanged by touching), on top of C36/C38/C85 for the results themselves; the harm done by an unknown id from the shape of the saved dict |
| C92 | gtp_engine.py:32-44, 78-101, 123-128, 244-338, 385-531 | Model/GtpSession; Spec/GtpSession (IsLines, Talk, registered), Spec/Gtp (Asks, responseText) | the session as iterations of its loop over arbitrary files; the prescribed conversation exists for all lines and is the one the loop has, by induction on it; a terminal session is the image of a file session; the handler table by induction on registrations |
| C93 | mcts_tuners.py 309-372 | Model/Mcts, Model/MctsRing; Spec/MctsExplore | If a child had fewer than N visits while its parent had very many, its UCT bonus (which grows with log of the parent's visits) would exceed any other child's urgency once those have many visits; so each simulation started then goes to a child with few visits; bounding the number of these, and of the games which were already in progress, bounds the parent's visits. Induction over the generations; the history invariant `History` says that each issued path is a UCT choice for the log at that time |
| C94 | gtp_states.py 240-526, 361-362; gtp_engine.py 295-338 | Model/GtpState, Model/GtpPlayer, Model/GtpStateEngine; Spec/GtpStateEngine | For each command, case analysis of the handler against the specification, using the state invariant of C34 (the board is reachable, has the state's size, and is the replay of the history) and the characterisations of vertices (C13, C14), integers and colours (C62), layouts (C15), SGF parsing (C20) and setup (C30). Sessions by induction over C92's `Talk` |
| C95 | ringmasters.py 332-364, 508-724; ringmaster_presenters.py 60-95; terminal_input.py | Model/RingLive; Spec/RingLive | A trace of all effects is kept; an invariant (LInv) says of every effect what comes before and after, by induction over the calls (Lemmas/RingLive). A simulation by RingAny's ringmaster (Lemmas/RingLiveRun) carries over C88-C90 |
| C96 | ringmasters.py 518-557; ringmaster_presenters.py 96-179 | Model/RingLive; Spec/RingLive | The contents of the boxes are what has been said in C95's trace (LInv); the rest by induction over the calls, and C88's correspondence of the games in progress with the jobs in flight |
| C97 | tournaments.py 182-262, 290-293; ringmasters.py 640-654 | Model/TournRing; Spec/TournRing | Two simulations: Model/Ringmaster's system is the image of RingAny's (Lemmas/TournRing, plain_step); RingLive's is RingAny's (C95_same_run). The history file: an invariant over Life (Props/TournRing). Ids by C36_distinct_ids |
| C98 | gomill_examples/kgs_proxy.py 25-138 | Model/KgsProxy; Spec/KgsProxy | Case analysis on the back end's replies over an arbitrary channel; induction over the commands for the colour (C98_colour); C56_file for the saved file (Props/KgsProxy) |
| C99 | gomill_examples/show_sgf.py 14-41, split_sgf_collection.py 14-30, find_forfeits.py 12-26 | Model/Scripts; Spec/Scripts | C94 and C12 for the position and the diagram; C52_load and C52_round_trip for the split games, with the root's comment followed through add_comment_text; induction over the games; C91 invariant for the results (Props/Scripts) |
| C100 | gomill_examples/gomill-clop (all of it), with ringmasters.py 70-330 and optparse's splitting of the command line | Model/Clop (on ControlFile, TunerConfig and GameJob); Spec/Clop | the readers of C83 and C77 for the settings, C84's job_core for the game, case analysis of the program's exits for the replies, lists of lines for the .clop file (Props/Clop). Not modelled: KeyboardInterrupt, what optparse and stderr show, failures writing the log |
| C101 | gomill_examples/twogtp (all of it), gtp_controller.py 925-997, 1085-1114 | Model/TwoGtp (on GameJob, GtpGame and AsciiBoard); Spec/TwoGtp | induction on the number of games, with an invariant about the controllers (Usable) which C58 shows that a completed game keeps; C58_callback and C31_callback for what's printed; C59 for the winner; C58_close_players for the ends (Props/TwoGtp). Not modelled: optparse, shlex, KeyboardInterrupt |
| C102 | gomill_examples/twogtp 24-27, 100-107; gtp_games.py make_sgf | Model/TwoGtp (twoSgf, twoWrite); Spec/TwoGtpSgf (TwoRecord, TwoFile) | the games are as C101 says (InTurn); an invariant that the texts the controllers hold are tidy, kept by every game (Lemmas/TwoGtpSgf run_tidy); C52/C53/C69's lemmas for the file (Props/TwoGtpSgf). The DT property isn't in the specification |
| C103 | gomill_examples/gtp_stateful_player 51-115; gtp_states.py 576-592 | Model/StatefulPlayer; Spec/StatefulPlayer (Reached, Generated, commands) | the table of handlers never changes and the Gtp_state is always Lived (C94), by induction on the commands; a legal position has an empty point (the liberty of any stone); C62's account of genmove, C94's Succeeds/Breaks and C92's Talk for the rest (Props/StatefulPlayer) |
| C104 | gomill_examples/gtp_test_player 46-133 | Model/TestPlayer; Spec/TestPlayer (after, countMoves, Delays, Forced) | what each command does to the count and the delayed error (effect); by induction on the commands after the last gomill-delayed_error, the error stays until a late enough genmove (keep) and then is gone for good (fade) (Props/TestPlayer) |
| C105 | gomill_examples/mogo_wrapper.py 14-40 | Model/MogoWrapper (on GtpProxy); Reached, IsSize in Props/MogoWrapper | the table of handlers never changes (induction on the commands); C61_start and C61's account of forwarding for the rest |

## What is not modelled, and simplifications

* `boards.py`: `Board.copy` is value copying. `gtp_states`/`sgf` use the model's value semantics.
* SGF encodings: UTF-8 and ISO-8859-1 are modelled concretely; other codecs are parameters satisfying `AsciiCompatible`
  (C50, C52) or `Transcodable` (C53). Names of encodings are a parameter (`NamesOK`).
* SGF: a lazily expanded game is expanded at once (justified by C23_expansion); checks that a node passed to a navigation
  method belongs to the game are omitted. A value passed to `Node.set` which is not of the documented Python type gives a TypeError
  in the model.
* Game theorems are for board sizes up to 25 (the vertex format's limit) where the code formats vertices.
* `Game_runner`'s backend is a state machine with arbitrary replies; the game-over callback is counted.
* `Gtp_state`: the move generator is a pure function of what it is told and may resign, pass, claim, move or fail;
  the engine loop's stream handling is in the channel model.
* Job manager: queues are FIFO lists, worker crashes of the OS kind and signals are not modelled; JobSourceError wrapping is
  not modelled.
* Game jobs: `open`, `ensure_dir` and starting a process succeed or fail according to the world; exceptions from `close()` and
  the log of GTP traffic are not modelled; '%.2f', dates and texts of game exceptions are parameters.
* Ringmaster: in the run loop (C36) status-file replacement is atomic, and the log, history files and display are not
  in the model (they are in C95 and C96, with any competition); opening and locking the files is C79, engine checking C80, reports C82 and C85. Engine descriptions (in status
  files and reports) and game settings in status files are parameters. Tuners' reports are C86 and C87.
  `Outcome` (what a finished game provides) assumes facts proved by `outcome_of_made` of every result the program makes.
* MCTS: the urgency is an arbitrary rational-valued function of the counts (so theorems hold for the UCB formula used);
  the control file's parameters stay fixed across restarts; in C43, system steps only report games in progress (C89 proves
  that this is what the ringmaster does).

## Disagreements between code and documentation, proved

* `Group_scheduler.all_fixed` with an unlimited group (C04_all_fixed_ignores_unlimited).
* `Gtp_state`: `genmove` returning a pass doesn't clear the ko point (C34_ko_after_genmove_pass); replaying a history with a
  pass keeps an old ko point (C34_ko_after_undo).
* `Gtp_state`: a failing `loadsgf` can change `board_size` (C35_loadsgf_changes_size); a failing `set_free_handicap` can forget
  a history of passes (C35_set_free_handicap_clears).
* `max_fixed_handicap(7)` is 0 (C15_size7).
* SGF: lower-case-only property identifiers parse as `''` (C17_empty_ident); size 26 boards have points that can't be
  written (C22_size26); AR/LN/LB/FG values without a colon raise TypeError/AttributeError (C21_missing_colon); compose of a
  part whose colon is already escaped (C21_compose_unescaped).
* `render_board` fails for sizes above 25 (C12_render_too_big).
* `Game.record_move` of an off-board move forgets the previous pass (C27_off_board_forgets_pass).
* `Node.set_move` and `set_setup_stones` are not atomic (C51_witness). `Node.set` does not check that text for a UTF-8 game is
  UTF-8. `add_comment_text` of text starting with CR merges the line break. A CA property with escapes is understood by
  `get_charset` but not by `from_string`; one with several values is accepted by `from_string` but makes `serialise` raise.
* GTP engine responses can contain an empty line (C32_not_framed, C32_not_framed_control); `#` in an argument
  sent by a controller loses the rest of the line (C44_hash).
* `Matchup_stats`: by-colour win counts add jigos to both colours (C38_jigo_witness).
* All-play-all with one competitor: IndexError (C39_one_competitor).
* Tournament: resuming with a changed control file can raise IndexError for a matchup without groups (C36_ghost_witness).
* MCTS: `LINEAR(integer=True)` with negative bounds rounds towards zero and can leave the bounds (C48_linear_negative).
* A forfeit whose reason isn't UTF-8 makes `Game_job.run` raise an exception other than JobFailed (C69_not_utf8).
* Engine descriptions: `clean_version` can be empty (C68_empty_clean_version).
* CEM tuner: some changes to the control file said to be safe are not (C66_lowered, C66_changes).
* Ringmaster: UnboundLocalError when the directory for SGF files can't be made (C78/C79 caveats); `reset` doesn't check
  the lock, and leaves `.status.new` behind (C78). Control files: caveats in C77_caveats.
* Reports: a player can be said to have scored 150% as Black, because jigos are counted for both colours (C82_witness).
* Tuner control files: an infinite or NaN komi crashes the MCTS tuner while the CEM tuner accepts it; a NaN variance is
  accepted; a parameter code with '%' breaks the default format (C83). `make_candidate` returning a tuple raises TypeError
  instead of CompetitionError (C84).
* CEM history: a candidate's half points are not shown (C87_witness shows 1.5 points as `1`).
* `place_free_handicap` on boards up to 7x7, or above 25x25, is an internal error; elsewhere the handicap recorded is the
  number asked for, though at most nine stones are placed (C94_outcome, C94_place_free_handicap, C94_witness).
* A negative `--max-games` means no limit, and the number is decremented even when no game is available (C96_max_games). The
  screen can't be cleared by newlines when LINES is set: TypeError (C96_type_error).
* `gomill-savesgf` with an empty history raises IndexError (C56_outcomes); an engine score `B+inf` or `B+nan` is accepted as a margin (`readMargin` in Model/GtpGame).
* `Competition.process_game_error`'s `previous_error_count`: if a competition reuses the id of a game which failed and then
  succeeded, the old game's failures are counted too (C88_witness); none of gomill's competitions does so within a run.
* `gomill-savesgf`'s escaping can't pass a backslash followed by an underscore (C56_escape). The example `kgs_proxy.py` uses
  backslash-space instead of `\_`, so games of a back end whose name has a space are never saved (C98_spaces); a fatal error
  of the back end during `kgs-game_over` is reported as success (C98_game_over).
* The example `split_sgf_collection.py` opens each file before serialising the game, so it leaves an empty file when that fails
  (C99_witness). `show_sgf.py` fails with IndexError for a 26x26 board (C99_show).
* gomill-clop gives CLOP's arguments to optparse, which takes a negative parameter value for an option, so no game is played
  (C100_negative). It doesn't refuse a control file whose extension is .clop or .elog, though `setup` overwrites the first and
  `run-game` appends to the second (C100_files). `setup` crashes for an infinite or NaN komi (C100_setup).
* twogtp catches GtpChannelError but not BadGtpResponse while it creates the players, so an engine which reports a protocol version other
  than 2 makes a traceback and the engines aren't closed; a command without words makes an IndexError; the engines aren't closed if an SGF
  file can't be opened; a score with an infinite or NaN margin makes a traceback (cases of C101_series). A channel which failed after the
  end of a game is used again for the next game.
* The docstring of gtp_stateful_player calls its command `gomill_resign_p`; the command is `gomill-resign_p` (C103_commands). The
  probability isn't checked: any finite number will do.
* gtp_test_player says that moves are counted from the start of the game, but clear_board doesn't reset the count (C104_delayed,
  C104_witness).
