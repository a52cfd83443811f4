{
 "claims": [
  {
   "property": "C01",
   "status": "proved",
   "theorems": [
    "Gomill.Sched.C01_counters",
    "Gomill.Sched.C01_issue_fresh",
    "Gomill.Sched.C01_fix_iff",
    "Gomill.Sched.C01_pickle"
   ],
   "note": "Full histories of issue/fix/rollback/pickle."
  },
  {
   "property": "C02",
   "status": "proved",
   "theorems": [
    "Gomill.Sched.C02_reissue_order",
    "Gomill.Sched.C02_nothing_lost"
   ],
   "note": ""
  },
  {
   "property": "C03",
   "status": "proved",
   "theorems": [
    "Gomill.Sched.C03_none_iff",
    "Gomill.Sched.C03_fair",
    "Gomill.Sched.C03_set_groups",
    "Gomill.Sched.C03_limits",
    "Gomill.Sched.C03_issue_fresh"
   ],
   "note": ""
  },
  {
   "property": "C04",
   "status": "partial",
   "theorems": [
    "Gomill.Sched.C04_all_fixed_partial",
    "Gomill.Sched.C04_all_fixed_limited",
    "Gomill.Sched.C04_all_fixed_ignores_unlimited"
   ],
   "note": "The documented claim is false for unlimited groups (Python 2: int >= None is True): C04_all_fixed_ignores_unlimited proves the negation with a reachable witness; C04_all_fixed_partial gives the exact behaviour and C04_all_fixed_limited the documented claim for limited groups."
  },
  {
   "property": "C05",
   "status": "proved",
   "theorems": [
    "Gomill.C05_reachable_legal",
    "Gomill.C05_legal_reachable"
   ],
   "note": ""
  },
  {
   "property": "C06",
   "status": "proved",
   "theorems": [
    "Gomill.C06_play_follows_rules",
    "Gomill.C06_play_errors"
   ],
   "note": ""
  },
  {
   "property": "C07",
   "status": "proved",
   "theorems": [
    "Gomill.C07_simple_ko",
    "Gomill.C07_ko_repeats"
   ],
   "note": ""
  },
  {
   "property": "C08",
   "status": "proved",
   "theorems": [
    "Gomill.C08_is_empty"
   ],
   "note": ""
  },
  {
   "property": "C09",
   "status": "proved",
   "theorems": [
    "Gomill.C09_apply_setup",
    "Gomill.C09_apply_setup_range"
   ],
   "note": ""
  },
  {
   "property": "C10",
   "status": "proved",
   "theorems": [
    "Gomill.C10_area_score",
    "Gomill.C10_area_score_antisymmetric"
   ],
   "note": ""
  },
  {
   "property": "C11",
   "status": "proved",
   "theorems": [
    "Gomill.C11_group_is_component",
    "Gomill.C11_region_is_component",
    "Gomill.C11_play_pop_order",
    "Gomill.C11_setup_pop_order",
    "Gomill.C11_area_pop_order"
   ],
   "note": ""
  },
  {
   "property": "C12",
   "status": "proved",
   "theorems": [
    "Gomill.C12_diagram_round_trip",
    "Gomill.C12_interpret_total",
    "Gomill.C12_interpret_legal",
    "Gomill.C12_render_too_big",
    "Gomill.C12_witness"
   ],
   "note": ""
  },
  {
   "property": "C13",
   "status": "proved",
   "theorems": [
    "Gomill.C13_vertex_round_trip",
    "Gomill.C13_pass_round_trip",
    "Gomill.C13_vertex_list",
    "Gomill.C13_witness"
   ],
   "note": ""
  },
  {
   "property": "C14",
   "status": "proved",
   "theorems": [
    "Gomill.C14_characterisation",
    "Gomill.C14_pass_characterisation",
    "Gomill.C14_total",
    "Gomill.C14_format_injective",
    "Gomill.C14_format_total"
   ],
   "note": ""
  },
  {
   "property": "C15",
   "status": "proved",
   "theorems": [
    "Gomill.C15_handicap_points",
    "Gomill.C15_altitude",
    "Gomill.C15_layout",
    "Gomill.C15_max_free",
    "Gomill.C15_size7",
    "Gomill.C15_witness"
   ],
   "note": ""
  },
  {
   "property": "C16",
   "status": "proved",
   "theorems": [
    "Gomill.Sgf.C16_round_trip",
    "Gomill.Sgf.C16_reparse",
    "Gomill.Sgf.C16_deterministic",
    "Gomill.Sgf.C16_ff_first",
    "Gomill.Sgf.C16_witness"
   ],
   "note": ""
  },
  {
   "property": "C17",
   "status": "proved",
   "theorems": [
    "Gomill.Sgf.C17_total",
    "Gomill.Sgf.C17_collection_total",
    "Gomill.Sgf.C17_terminates",
    "Gomill.Sgf.C17_no_start",
    "Gomill.Sgf.C17_parsed_valid",
    "Gomill.Sgf.C17_empty_ident"
   ],
   "note": ""
  },
  {
   "property": "C18",
   "status": "proved",
   "theorems": [
    "Gomill.Sgf.C18_collection",
    "Gomill.Sgf.C18_witness"
   ],
   "note": ""
  },
  {
   "property": "C19",
   "status": "proved",
   "theorems": [
    "Gomill.Sgf.C19_text_value",
    "Gomill.Sgf.C19_roundtrip",
    "Gomill.Sgf.C19_exact",
    "Gomill.Sgf.C19_valid",
    "Gomill.Sgf.C19_presenter",
    "Gomill.Sgf.C19_utf8",
    "Gomill.Sgf.C19_latin1",
    "Gomill.Sgf.C19_encodings",
    "Gomill.Sgf.C19_witness"
   ],
   "note": ""
  },
  {
   "property": "C20",
   "status": "proved",
   "theorems": [
    "Gomill.Sgf.C20_simpletext_value",
    "Gomill.Sgf.C20_roundtrip",
    "Gomill.Sgf.C20_exact",
    "Gomill.Sgf.C20_presenter",
    "Gomill.Sgf.C20_one_line",
    "Gomill.Sgf.C20_witness"
   ],
   "note": ""
  },
  {
   "property": "C21",
   "status": "proved",
   "theorems": [
    "Gomill.Sgf.C21_compose",
    "Gomill.Sgf.C21_compose_simpletext",
    "Gomill.Sgf.C21_compose_plain",
    "Gomill.Sgf.C21_parse",
    "Gomill.Sgf.C21_AP",
    "Gomill.Sgf.C21_FG",
    "Gomill.Sgf.C21_compose_unescaped",
    "Gomill.Sgf.C21_missing_colon",
    "Gomill.Sgf.C21_ARLN",
    "Gomill.Sgf.C21_LB",
    "Gomill.Sgf.C21_witness"
   ],
   "note": ""
  },
  {
   "property": "C22",
   "status": "proved",
   "theorems": [
    "Gomill.Sgf.C22_move_roundtrip",
    "Gomill.Sgf.C22_serialise_rejects",
    "Gomill.Sgf.C22_interpret_total",
    "Gomill.Sgf.C22_interpret_point",
    "Gomill.Sgf.C22_size26",
    "Gomill.Sgf.C22_point_list",
    "Gomill.Sgf.C22_point_list_roundtrip",
    "Gomill.Sgf.C22_simple_types",
    "Gomill.Sgf.C22_witness"
   ],
   "note": ""
  },
  {
   "property": "C23",
   "status": "proved",
   "theorems": [
    "Gomill.Sgf.C23_coarse",
    "Gomill.Sgf.C23_main_sequence",
    "Gomill.Sgf.C23_navigation",
    "Gomill.Sgf.C23_expansion",
    "Gomill.Sgf.C23_witness"
   ],
   "note": ""
  },
  {
   "property": "C24",
   "status": "proved",
   "theorems": [
    "Gomill.Sgf.C24_roundtrip",
    "Gomill.Sgf.C24_variations",
    "Gomill.Sgf.C24_edited",
    "Gomill.Sgf.C24_witness"
   ],
   "note": ""
  },
  {
   "property": "C25",
   "status": "proved",
   "theorems": [
    "Gomill.Sgf.C25_forest",
    "Gomill.Sgf.C25_child_once",
    "Gomill.Sgf.C25_tree",
    "Gomill.Sgf.C25_sequence_above",
    "Gomill.Sgf.C25_reparent",
    "Gomill.Sgf.C25_delete",
    "Gomill.Sgf.C25_new_child",
    "Gomill.Sgf.C25_find",
    "Gomill.Sgf.C25_witness"
   ],
   "note": ""
  },
  {
   "property": "C26",
   "status": "proved",
   "theorems": [
    "Gomill.C26_ending",
    "Gomill.C26_winner",
    "Gomill.C26_final",
    "Gomill.C26_accepts",
    "Gomill.C26_witness"
   ],
   "note": ""
  },
  {
   "property": "C27",
   "status": "proved",
   "theorems": [
    "Gomill.C27_passes_and_limit",
    "Gomill.C27_limit_bound",
    "Gomill.C27_turn",
    "Gomill.C27_off_board_forgets_pass"
   ],
   "note": ""
  },
  {
   "property": "C28",
   "status": "proved",
   "theorems": [
    "Gomill.C28_legality",
    "Gomill.C28_pass",
    "Gomill.C28_replay",
    "Gomill.C28_witness"
   ],
   "note": ""
  },
  {
   "property": "C29",
   "status": "proved",
   "theorems": [
    "Gomill.C29_adjust_score",
    "Gomill.C29_game_score",
    "Gomill.C29_from_position",
    "Gomill.C29_result",
    "Gomill.C29_witness"
   ],
   "note": ""
  },
  {
   "property": "C30",
   "status": "proved",
   "theorems": [
    "Gomill.C30_pickle_round_trip",
    "Gomill.C30_derived",
    "Gomill.C30_players",
    "Gomill.C30_unscored",
    "Gomill.C30_cpu_times",
    "Gomill.C30_describe",
    "Gomill.C30_forfeit_detail",
    "Gomill.C30_witness"
   ],
   "note": ""
  },
  {
   "property": "C31",
   "status": "proved",
   "theorems": [
    "Gomill.C31_terminates",
    "Gomill.C31_fuel",
    "Gomill.C31_run",
    "Gomill.C31_moves",
    "Gomill.C31_resign_claim_forfeit",
    "Gomill.C31_illegal",
    "Gomill.C31_legal",
    "Gomill.C31_exception",
    "Gomill.C31_order",
    "Gomill.C31_set_handicap",
    "Gomill.C31_witness",
    "Gomill.C31_callback"
   ],
   "note": ""
  },
  {
   "property": "C32",
   "status": "partial",
   "theorems": [
    "Gomill.Gtp.C32_total",
    "Gomill.Gtp.C32_words",
    "Gomill.Gtp.C32_blank",
    "Gomill.Gtp.C32_id_only",
    "Gomill.Gtp.C32_plain",
    "Gomill.Gtp.C32_id_separate",
    "Gomill.Gtp.C32_id_attached",
    "Gomill.Gtp.C32_cases",
    "Gomill.Gtp.C32_no_response_iff",
    "Gomill.Gtp.C32_outcomes",
    "Gomill.Gtp.C32_no_controls",
    "Gomill.Gtp.C32_framed_partial",
    "Gomill.Gtp.C32_framing_exact",
    "Gomill.Gtp.C32_not_framed",
    "Gomill.Gtp.C32_not_framed_control"
   ],
   "note": "Shape, id echo and the exact set of unanswered lines are proved for all lines; framing is proved for handler text without control characters and without consecutive blank lines (C32_framed_partial). In general it is false of the code: C32_not_framed, C32_not_framed_control."
  },
  {
   "property": "C33",
   "status": "proved",
   "theorems": [
    "Gomill.Gtp.C33_read",
    "Gomill.Gtp.C33_leading_blank",
    "Gomill.Gtp.C33_not_sendable"
   ],
   "note": "Under the sendability condition of C32 (without it: C33_not_sendable). Leading blanks of the text are lost (C33_leading_blank)."
  },
  {
   "property": "C34",
   "status": "proved",
   "theorems": [
    "Gomill.Gtp.C34_board_is_replay",
    "Gomill.Gtp.C34_ko",
    "Gomill.Gtp.C34_ko_sound",
    "Gomill.Gtp.C34_undo",
    "Gomill.Gtp.C34_play",
    "Gomill.Gtp.C34_undo_inverse",
    "Gomill.Gtp.C34_fixed_handicap",
    "Gomill.Gtp.C34_place_free_handicap",
    "Gomill.Gtp.C34_set_free_handicap",
    "Gomill.Gtp.C34_loadsgf",
    "Gomill.Gtp.C34_witness",
    "Gomill.Gtp.C34_ko_after_genmove_pass",
    "Gomill.Gtp.C34_ko_after_undo"
   ],
   "note": "All histories of the 15 commands. Ko after a pass disagrees with the rules: C34_ko_after_genmove_pass, C34_ko_after_undo."
  },
  {
   "property": "C35",
   "status": "proved",
   "theorems": [
    "Gomill.Gtp.C35_failed_unchanged",
    "Gomill.Gtp.C35_set_free_handicap",
    "Gomill.Gtp.C35_loadsgf",
    "Gomill.Gtp.C35_loadsgf_changes_size",
    "Gomill.Gtp.C35_set_free_handicap_clears"
   ],
   "note": "Exact effect of every failing command; witnesses of what the two exceptions can do: C35_loadsgf_changes_size, C35_set_free_handicap_clears."
  },
  {
   "property": "C36",
   "status": "proved",
   "theorems": [
    "Gomill.Tourn.C36_distinct",
    "Gomill.Tourn.C36_distinct_ids",
    "Gomill.Tourn.C36_recorded",
    "Gomill.Tourn.C36_not_lost",
    "Gomill.Tourn.C36_not_replayed",
    "Gomill.Tourn.C36_complete",
    "Gomill.Tourn.C36_numbers",
    "Gomill.Tourn.C36_players",
    "Gomill.Tourn.C36_no_internal_error",
    "Gomill.Tourn.C36_resumable",
    "Gomill.Tourn.C36_witness",
    "Gomill.Tourn.C36_ghost_witness"
   ],
   "note": "Ringmaster, tournament, scheduler, job manager and status file together, over all sequences of starts (any control files), steps, failures, crashes and resumes. C36_resumable needs the control file to be unchanged; C36_ghost_witness shows a changed one can be refused."
  },
  {
   "property": "C37",
   "status": "proved",
   "theorems": [
    "Gomill.Tourn.C37_colours",
    "Gomill.Tourn.C37_get_game",
    "Gomill.Tourn.C37_balance",
    "Gomill.Tourn.C37_witness"
   ],
   "note": "All matchups and game numbers."
  },
  {
   "property": "C38",
   "status": "partial",
   "theorems": [
    "Gomill.Tourn.C38_totals",
    "Gomill.Tourn.C38_played",
    "Gomill.Tourn.C38_colour_breakdown_partial",
    "Gomill.Tourn.C38_jigo_witness",
    "Gomill.Tourn.C38_average"
   ],
   "note": "Totals, colours played and averages are proved for every list of results. The by-colour breakdown of wins adds up only without jigos (C38_colour_breakdown_partial says by how much it is out; C38_jigo_witness refutes the general claim)."
  },
  {
   "property": "C39",
   "status": "proved",
   "theorems": [
    "Gomill.Tourn.C39_short_codes",
    "Gomill.Tourn.C39_accepted",
    "Gomill.Tourn.C39_pairs",
    "Gomill.Tourn.C39_count",
    "Gomill.Tourn.C39_extended",
    "Gomill.Tourn.C39_one_competitor",
    "Gomill.Tourn.C39_witness",
    "Gomill.Tourn.C39_playoff",
    "Gomill.Tourn.C39_playoff_witness",
    "Gomill.Tourn.C39_reload",
    "Gomill.Tourn.C39_identifiers",
    "Gomill.Tourn.C39_clone",
    "Gomill.Tourn.C39_identifiers_witness"
   ],
   "note": "All control files up to the 702-competitor limit, which is proved to be exactly the limit; playoffs too."
  },
  {
   "property": "C40",
   "status": "proved",
   "theorems": [
    "Gomill.Tourn.C40_value",
    "Gomill.Tourn.C40_injective",
    "Gomill.Tourn.C40_width",
    "Gomill.Tourn.C40_sorted",
    "Gomill.Tourn.C40_padding",
    "Gomill.Tourn.C40_witness"
   ],
   "note": "All matchups and game numbers."
  },
  {
   "property": "C41",
   "status": "proved",
   "theorems": [
    "Gomill.Jobs.C41_bound",
    "Gomill.Jobs.C41_exactly_once",
    "Gomill.Jobs.C41_finished",
    "Gomill.Jobs.C41_no_deadlock",
    "Gomill.Jobs.C41_terminates",
    "Gomill.Jobs.C41_in_process",
    "Gomill.Jobs.C41_witness",
    "Gomill.Jobs.C41_one_worker"
   ],
   "note": "All interleavings of the manager and worker processes (small-step), any job source."
  },
  {
   "property": "C42",
   "status": "proved",
   "theorems": [
    "Gomill.Mcts.C42_count",
    "Gomill.Mcts.C42_coordinates",
    "Gomill.Mcts.C42_bijection",
    "Gomill.Mcts.C42_order",
    "Gomill.Mcts.C42_centre",
    "Gomill.Mcts.C42_inside",
    "Gomill.Mcts.C42_tiling",
    "Gomill.Mcts.C42_nested",
    "Gomill.Mcts.C42_generation",
    "Gomill.Mcts.C42_distinct",
    "Gomill.Mcts.C42_bad_index"
   ],
   "note": "Every list of splits, path and point; InCell is an independent recursive definition. Floats as exact rationals."
  },
  {
   "property": "C43",
   "status": "proved",
   "theorems": [
    "Gomill.Mcts.C43_counts",
    "Gomill.Mcts.C43_wins_le",
    "Gomill.Mcts.C43_failure",
    "Gomill.Mcts.C43_shape",
    "Gomill.Mcts.C43_get_game",
    "Gomill.Mcts.C43_get_game_none",
    "Gomill.Mcts.C43_no_errors",
    "Gomill.Mcts.C43_restart",
    "Gomill.Mcts.C43_number_of_games",
    "Gomill.Mcts.C43_best",
    "Gomill.Mcts.C43_children"
   ],
   "note": "All sequences of get_game/result/error/save/restart steps. Urgency is an arbitrary function of the counts (the UCT formula itself is not modelled); random choices are universally quantified."
  },
  {
   "property": "C44",
   "status": "proved",
   "theorems": [
    "Gomill.Gtp.C44_command_arrives",
    "Gomill.Gtp.C44_refused",
    "Gomill.Gtp.C44_hash",
    "Gomill.Gtp.C44_session"
   ],
   "note": "Whole sessions by induction over the commands. A # in an argument, which the controller accepts, loses the rest of the line: C44_hash."
  },
  {
   "property": "C45",
   "status": "proved",
   "theorems": [
    "Gomill.Tourn.C45_max_games"
   ],
   "note": "Any history, any interleaving."
  },
  {
   "property": "C46",
   "status": "proved",
   "theorems": [
    "Gomill.Tourn.C46_bound",
    "Gomill.Tourn.C46_ends"
   ],
   "note": "Any history, any interleaving; needs number_of_games set for every matchup."
  },
  {
   "property": "C47",
   "status": "proved",
   "theorems": [
    "Gomill.Tourn.C47_stops",
    "Gomill.Tourn.C47_continues",
    "Gomill.Tourn.C47_made_good",
    "Gomill.Tourn.C47_witness"
   ],
   "note": "Any history, any interleaving; lastSucceeded and madeGood read the record of calls."
  },
  {
   "property": "C48",
   "status": "proved",
   "theorems": [
    "Gomill.Mcts.C48_explicit",
    "Gomill.Mcts.C48_explicit_paths",
    "Gomill.Mcts.C48_explicit_onto",
    "Gomill.Mcts.C48_linear",
    "Gomill.Mcts.C48_linear_integer",
    "Gomill.Mcts.C48_linear_negative",
    "Gomill.Mcts.C48_log",
    "Gomill.Mcts.C48_log_integer",
    "Gomill.Mcts.C48_log_bad"
   ],
   "note": "Floats as exact rationals (LINEAR, EXPLICIT) or reals (LOG). C48_linear_negative is a witness that integer=True leaves negative bounds."
  },
  {
   "property": "C49",
   "status": "proved",
   "theorems": [
    "Gomill.Mcts.C49_halt"
   ],
   "note": "All sequences of steps."
  },
  {
   "property": "C50",
   "status": "proved",
   "theorems": [
    "Gomill.Sgf.C50_types",
    "Gomill.Sgf.C50_set_iff",
    "Gomill.Sgf.C50_set_get",
    "Gomill.Sgf.C50_register",
    "Gomill.Sgf.C50_standard",
    "Gomill.Sgf.C50_set_size",
    "Gomill.Sgf.C50_witness"
   ],
   "note": "All property types, values and ASCII-compatible codecs (UTF-8 and ISO-8859-1 concretely). Python float/repr conversions are a parameter with stated laws (FloatsOK), met by C50_witness. Text must be valid UTF-8: Node.set does not check it."
  },
  {
   "property": "C51",
   "status": "proved",
   "theorems": [
    "Gomill.Sgf.C51_valid",
    "Gomill.Sgf.C51_frame",
    "Gomill.Sgf.C51_size",
    "Gomill.Sgf.C51_atomic",
    "Gomill.Sgf.C51_set_move",
    "Gomill.Sgf.C51_set_setup",
    "Gomill.Sgf.C51_comment",
    "Gomill.Sgf.C51_witness"
   ],
   "note": "Any node, any operation (). set_move and set_setup_stones are not atomic: C51_witness."
  },
  {
   "property": "C52",
   "status": "proved",
   "theorems": [
    "Gomill.Sgf.C52_has_tree",
    "Gomill.Sgf.C52_round_trip",
    "Gomill.Sgf.C52_declared",
    "Gomill.Sgf.C52_witness",
    "Gomill.Sgf.C52_load",
    "Gomill.Sgf.C52_load_witness"
   ],
   "note": "Any session of any number of games (Session); Corresponds/HasTree are independent of the code. Encoding names and codecs are parameters with stated laws (NamesOK, AsciiCompatible), met by C52_witness."
  },
  {
   "property": "C53",
   "status": "proved",
   "theorems": [
    "Gomill.Sgf.C53_transcode",
    "Gomill.Sgf.C53_meaning",
    "Gomill.Sgf.C53_encodings",
    "Gomill.Sgf.C53_witness"
   ],
   "note": "Codecs by laws (Transcodable), proved of UTF-8 and ISO-8859-1 (C53_encodings)."
  },
  {
   "property": "C54",
   "status": "proved",
   "theorems": [
    "Gomill.Sgf.C54_append",
    "Gomill.Sgf.C54_position",
    "Gomill.Sgf.C54_round_trip",
    "Gomill.Sgf.C54_first_player",
    "Gomill.Sgf.C54_witness"
   ],
   "note": "Any session; games with the standard property types. What an exception leaves behind in the middle of set_setup_stones etc. is C51."
  },
  {
   "property": "C55",
   "status": "proved",
   "theorems": [
    "Gomill.Sgf.C55_make_sgf",
    "Gomill.Sgf.C55_run",
    "Gomill.Sgf.C55_witness"
   ],
   "note": "Hypotheses: the handicap stones are on the board and do not cover it; engine texts, version and date are UTF-8; the komi is a float. C55_make_sgf is about any recordable runner, C55_run about runners after run."
  },
  {
   "property": "C56",
   "status": "proved",
   "theorems": [
    "Gomill.Gtp.C56_save_load",
    "Gomill.Gtp.C56_file",
    "Gomill.Gtp.C56_outcomes",
    "Gomill.Gtp.C56_witness",
    "Gomill.Gtp.C56_escape",
    "Gomill.Gtp.C56_escape_witness"
   ],
   "note": "Extra arguments may set any property but SZ, CA, KM, HA, B, W, PL (values for AB, AW, AE are ignored). Codecs, float formatting, date, version and the file system are parameters (SaveEnv, Env)."
  },
  {
   "property": "C57",
   "status": "proved",
   "theorems": [
    "Gomill.Gtp.C57_protocol",
    "Gomill.Gtp.C57_known_cached",
    "Gomill.Gtp.C57_list_commands",
    "Gomill.Gtp.C57_do_command",
    "Gomill.Gtp.C57_safe_do_command",
    "Gomill.Gtp.C57_safe_known_command",
    "Gomill.Gtp.C57_safe_close",
    "Gomill.Gtp.C57_safe_errors",
    "Gomill.Gtp.C57_witness"
   ],
   "note": "The channel is an arbitrary state machine (Channel), with Internal_gtp_channel as an instance; logging, describe_engine and the diagnostic stderr are not modelled. Well-formedness of aliased words is a hypothesis where a ValueError is possible."
  },
  {
   "property": "C58",
   "status": "proved",
   "theorems": [
    "Gomill.Gtp.C58_prepare",
    "Gomill.Gtp.C58_set_handicap",
    "Gomill.Gtp.C58_run",
    "Gomill.Gtp.C58_terminates",
    "Gomill.Gtp.C58_moves",
    "Gomill.Gtp.C58_close_players",
    "Gomill.Gtp.C58_witness",
    "Gomill.Gtp.C58_callback",
    "Gomill.Gtp.C58_callback_witness"
   ],
   "note": "Channels are arbitrary state machines. Exceptions: backend 0 is BadGtpResponse, 1 GtpChannelError, k+3 the callback's. The engine descriptions are not modelled; str(komi) is a parameter, taken to be a well-formed word. Refuted part of the docstring (inf/nan margins) is stated in C58_run and shown in C58_witness."
  },
  {
   "property": "C59",
   "status": "proved",
   "theorems": [
    "Gomill.Gtp.C59_score",
    "Gomill.Gtp.C59_result"
   ],
   "note": "float() is a parameter; upper() is ASCII. Each NaN is different in a Python set."
  },
  {
   "property": "C60",
   "status": "proved",
   "theorems": [
    "Gomill.Gtp.C60_response",
    "Gomill.Gtp.C60_truncated",
    "Gomill.Gtp.C60_truncated_line",
    "Gomill.Gtp.C60_closed",
    "Gomill.Gtp.C60_total",
    "Gomill.Gtp.C60_first",
    "Gomill.Gtp.C60_tidy",
    "Gomill.Gtp.C60_progress",
    "Gomill.Gtp.C60_witness"
   ],
   "note": "The engine output up to end-of-file is a finite string. A channel that does not implement get_response_byte is the case first=false."
  },
  {
   "property": "C61",
   "status": "proved",
   "theorems": [
    "Gomill.Gtp.C61_start",
    "Gomill.Gtp.C61_add_remove",
    "Gomill.Gtp.C61_unchanged",
    "Gomill.Gtp.C61_forward",
    "Gomill.Gtp.C61_broken",
    "Gomill.Gtp.C61_words",
    "Gomill.Gtp.C61_own",
    "Gomill.Gtp.C61_unknown",
    "Gomill.Gtp.C61_quit",
    "Gomill.Gtp.C61_close_after",
    "Gomill.Gtp.C61_close",
    "Gomill.Gtp.C61_close_ok",
    "Gomill.Gtp.C61_session",
    "Gomill.Gtp.C61_witness"
   ],
   "note": "Transparency of whole sessions is stated for an engine in the same process (Internal_gtp_channel); for line-based channels C61_unchanged shows each response passes unchanged. Custom handlers which change the handler table, and set_back_end_subprocess, are not modelled."
  },
  {
   "property": "C62",
   "status": "proved",
   "theorems": [
    "Gomill.Gtp.C62_colour",
    "Gomill.Gtp.C62_int",
    "Gomill.Gtp.C62_clock",
    "Gomill.Gtp.C62_time_settings",
    "Gomill.Gtp.C62_komi",
    "Gomill.Gtp.C62_only_told",
    "Gomill.Gtp.C62_told",
    "Gomill.Gtp.C62_genmove",
    "Gomill.Gtp.C62_genmove_bad",
    "Gomill.Gtp.C62_explain",
    "Gomill.Gtp.C62_last_move",
    "Gomill.Gtp.C62_witness",
    "Gomill.Gtp.C62_witness_komi"
   ],
   "note": "Both the settings (by induction over any sequence of commands) and the treatment of the generator's answer. C62_only_told: two generators which agree on this one question give the same result. float() is a parameter."
  },
  {
   "property": "C63",
   "status": "proved",
   "theorems": [
    "Gomill.Gtp.C63_transcript",
    "Gomill.Gtp.C63_get_move",
    "Gomill.Gtp.C63_answers_unique",
    "Gomill.Gtp.C63_notify_move",
    "Gomill.Gtp.C63_fixed_handicap",
    "Gomill.Gtp.C63_free_handicap",
    "Gomill.Gtp.C63_witness"
   ],
   "note": "The channels are wrapped to record what is sent; the transcript covers runs cut short by an exception. Standing (Spec/GameTrack) relates the phase reached to the moves and the ending."
  },
  {
   "property": "C64",
   "status": "proved",
   "theorems": [
    "Gomill.Gtp.C64_lockstep",
    "Gomill.Gtp.C64_no_disputes",
    "Gomill.Gtp.C64_witness"
   ],
   "note": "Whole Gtp_games between two engines made of Gtp_states (any generators): the engines' states follow the game (C64_lockstep, over Standing/knownBy), and the consequences for forfeits and illegal moves (C64_no_disputes, whose hypotheses are conclusions of C64_lockstep).  Aliases are taken to be empty and there must be no outstanding responses."
  },
  {
   "property": "C65",
   "status": "proved",
   "theorems": [
    "Gomill.Cem.C65_result",
    "Gomill.Cem.C65_update",
    "Gomill.Cem.C65_best",
    "Gomill.Cem.C65_elite_count",
    "Gomill.Cem.C65_witness"
   ],
   "note": "Exact rational arithmetic: the floating-point formula E[x^2]-E[x]^2 can give a slightly negative variance (ValueError from sqrt) where the exact one is 0. C65_result ties the update to whole histories (Reached, C66)."
  },
  {
   "property": "C66",
   "status": "proved",
   "theorems": [
    "Gomill.Cem.C66_names",
    "Gomill.Cem.C66_completed",
    "Gomill.Cem.C66_wins",
    "Gomill.Cem.C66_finish",
    "Gomill.Cem.C66_no_exception",
    "Gomill.Cem.C66_restart",
    "Gomill.Cem.C66_score",
    "Gomill.Cem.C66_lowered",
    "Gomill.Cem.C66_errors",
    "Gomill.Cem.C66_witness",
    "Gomill.Cem.C66_changes"
   ],
   "note": "C66_lowered proves that after lowering number_of_generations to a number already completed the tuner never stops by itself; C66_changes exhibits the other unsafe changes (contrary to gomill_docs/cem_tuner.rst 354-366). The log of results is a ghost of the model."
  },
  {
   "property": "C67",
   "status": "proved",
   "theorems": [
    "Gomill.Sgf.C67_player_name",
    "Gomill.Sgf.C67_winner",
    "Gomill.Sgf.C67_komi",
    "Gomill.Sgf.C67_handicap",
    "Gomill.Sgf.C67_find_property",
    "Gomill.Sgf.C67_date",
    "Gomill.Sgf.C67_witness",
    "Gomill.Sgf.C67_find_witness"
   ],
   "note": "strftime of Python 2 is modelled as plain digits (years 1900-9999). str.lower() is that of the C locale. The presenter is any one in which the property has its standard type (C50_types)."
  },
  {
   "property": "C68",
   "status": "proved",
   "theorems": [
    "Gomill.Gtp.C68_attributes",
    "Gomill.Gtp.C68_descriptions",
    "Gomill.Gtp.C68_query",
    "Gomill.Gtp.C68_witness",
    "Gomill.Gtp.C68_empty_clean_version"
   ],
   "note": "The repair of ill-formed UTF-8 is a parameter assumed to give valid non-empty text without introducing trailing whitespace (Replaces). C68_empty_clean_version: the class documentation says that no attribute is ever an empty string, but clean_version is empty when the version is just the name (the short description is then e.g. Fuego followed by a colon)."
  },
  {
   "property": "C69",
   "status": "proved",
   "theorems": [
    "Gomill.Gtp.C69_scoring",
    "Gomill.Gtp.C69_describe",
    "Gomill.Gtp.C69_record_game",
    "Gomill.Gtp.C69_record_void_game",
    "Gomill.Gtp.C69_witness",
    "Gomill.Gtp.C69_not_utf8",
    "Gomill.Gtp.C69_void_witness"
   ],
   "note": "C69_record_game and C69_record_void_game assume that all texts are UTF-8 without carriage returns (Recorded): C69_not_utf8 proves that this is needed, as after a forfeit whose reason isn't UTF-8 `run` can raise an exception which isn't JobFailed, losing the result. Whitespace in texts is normalised as in C13/C14. '%.2f', the dates and the texts of exceptions are parameters."
  },
  {
   "property": "C70",
   "status": "proved",
   "theorems": [
    "Gomill.Gtp.C70_process",
    "Gomill.Gtp.C70_files",
    "Gomill.Gtp.C70_engines",
    "Gomill.Gtp.C70_written",
    "Gomill.Gtp.C70_failed",
    "Gomill.Gtp.C70_result",
    "Gomill.Gtp.C70_game",
    "Gomill.Gtp.C70_witness"
   ],
   "note": "A crash (an exception other than JobFailed) is one of the modelled outcomes; C71 says when it can't happen. Errors from close() and logging of GTP traffic aren't modelled. In the theorem about failures Trouble, EngineUp and EngineFails (Spec/GameJob) refer to set_up/play functions of the model, which are the subject of C57, C58 and C68."
  },
  {
   "property": "C71",
   "status": "proved",
   "theorems": [
    "Gomill.Gtp.C71_total",
    "Gomill.Gtp.C71_witness"
   ],
   "note": "GoodJob also assumes that responses don't end in whitespace (true of Linebased_gtp_channel, C60), that the komi is a float whose text is a GTP word, and that aliases and startup commands are well-formed words. C71_witness exhibits a job which crashes on a final_score of B+inf."
  },
  {
   "property": "C72",
   "status": "proved",
   "theorems": [
    "Gomill.Gtp.C72_check_player",
    "Gomill.Gtp.C72_commands",
    "Gomill.Gtp.C72_witness"
   ],
   "note": "Assumes the words to be sent are well-formed (CheckWords); otherwise check_player propagates ValueError."
  },
  {
   "property": "C73",
   "status": "proved",
   "theorems": [
    "Gomill.Conf.C73_load_settings",
    "Gomill.Conf.C73_exclusive",
    "Gomill.Conf.C73_resolve_arguments",
    "Gomill.Conf.C73_interpreters",
    "Gomill.Conf.C73_witness",
    "Gomill.Conf.C73_messages"
   ],
   "note": "C73_load_settings assumes that the interpreters don't raise KeyError (all of those modelled satisfy this); C73_witness shows what happens otherwise. Python objects which the code doesn't look into are opaque, and list(), dict(), shlex.split, expanduser and float() are parameters (World). interpret_colour, interpret_callable and interpret_any aren't modelled."
  },
  {
   "property": "C74",
   "status": "proved",
   "theorems": [
    "Gomill.Conf.C74_player",
    "Gomill.Conf.C74_words",
    "Gomill.Conf.C74_competition",
    "Gomill.Conf.C74_errors",
    "Gomill.Conf.C74_witness"
   ],
   "note": "C74_competition assumes that dict() gives no two keys with the same text (DictKeys). C74_witness records that gtp_aliases=None and startup_gtp_commands=None are refused, though the settings are declared allow_none. A startup command given as a list of unicode strings is treated as bytes."
  },
  {
   "property": "C75",
   "status": "proved",
   "theorems": [
    "Gomill.Conf.C75_matchup",
    "Gomill.Conf.C75_handicap",
    "Gomill.Conf.C75_playoff",
    "Gomill.Conf.C75_accepted",
    "Gomill.Conf.C75_control",
    "Gomill.Conf.C75_jobs",
    "Gomill.Conf.C75_player_checks",
    "Gomill.Conf.C75_errors",
    "Gomill.Conf.C75_witness"
   ],
   "note": "PythonOK: keyword arguments have different names, and dict() gives no two keys with the same text. A negative number_of_games is accepted by the code (and by C75). In C75_jobs the komi is finite."
  },
  {
   "property": "C76",
   "status": "proved",
   "theorems": [
    "Gomill.Conf.C76_allplayall",
    "Gomill.Conf.C76_control",
    "Gomill.Conf.C76_accepted",
    "Gomill.Conf.C76_jobs",
    "Gomill.Conf.C76_player_checks",
    "Gomill.Conf.C76_errors",
    "Gomill.Conf.C76_messages",
    "Gomill.Conf.C76_witness"
   ],
   "note": "PythonOK as for C75. C76_control shows that the result is the competition of C39. In C76_jobs the komi is finite. The text of the message when the value given as a player can't be a dict key is not modelled."
  },
  {
   "property": "C77",
   "status": "proved",
   "theorems": [
    "Gomill.Conf.C77_paths",
    "Gomill.Conf.C77_reserved",
    "Gomill.Conf.C77_distinct",
    "Gomill.Conf.C77_type",
    "Gomill.Conf.C77_ringmaster",
    "Gomill.Conf.C77_errors",
    "Gomill.Conf.C77_witness",
    "Gomill.Conf.C77_caveats"
   ],
   "note": "Running the Python code and initialising a tuner are parameters (ControlWorld); KeyboardInterrupt isn't modelled, nor set_event_logger. C77_caveats exhibits control files which might be overwritten (named like a temporary status file, or with a name which is just a reserved extension), and that DOS line endings are refused."
  },
  {
   "property": "C78",
   "status": "proved",
   "theorems": [
    "Gomill.Conf.C78_reset",
    "Gomill.Conf.C78_reset_safe",
    "Gomill.Conf.C78_prepare",
    "Gomill.Conf.C78_pathnames",
    "Gomill.Conf.C78_records",
    "Gomill.Conf.C78_ids",
    "Gomill.Conf.C78_witness"
   ],
   "note": "os.remove and shutil.rmtree are parameters, assumed to remove only the file or tree given (OsOK); there are no links. The temporary file <code>.status.new isn't removed by reset, although the docstring says that all files are. The tuners' game ids aren't covered by C78_ids."
  },
  {
   "property": "C79",
   "status": "proved",
   "theorems": [
    "Gomill.Conf.C79_open",
    "Gomill.Conf.C79_running",
    "Gomill.Conf.C79_errors",
    "Gomill.Conf.C79_keeps",
    "Gomill.Conf.C79_exclusive",
    "Gomill.Conf.C79_restart",
    "Gomill.Conf.C79_refused",
    "Gomill.Conf.C79_witness"
   ],
   "note": "It is assumed that flock works (C79 says nothing otherwise) and that a process's locks are released when it ends. C79_witness: when os.mkdir fails the exception is UnboundLocalError, not RingmasterError (a slip in the handler, which C79_errors states as the only such case); and if the log file is removed during a run, as the reset command does without checking the lock, a second run can start."
  },
  {
   "property": "C80",
   "status": "proved",
   "theorems": [
    "Gomill.Conf.C80_history",
    "Gomill.Conf.C80_usage",
    "Gomill.Conf.C80_run",
    "Gomill.Conf.C80_check_players",
    "Gomill.Conf.C80_load_status",
    "Gomill.Conf.C80_written_status",
    "Gomill.Conf.C80_clean_status",
    "Gomill.Conf.C80_witness",
    "Gomill.Conf.C80_check_witness"
   ],
   "note": "The Ringmaster's methods are parameters of the command line's model (CmdWorld); option parsing by optparse isn't modelled. What unpickling gives is a parameter of load_status. CompetitionError from get_player_checks isn't modelled in check_players."
  },
  {
   "property": "C81",
   "status": "proved",
   "theorems": [
    "Gomill.Tab.C81_render",
    "Gomill.Tab.C81_omitted",
    "Gomill.Tab.C81_cells",
    "Gomill.Tab.C81_add_column",
    "Gomill.Tab.C81_errors",
    "Gomill.Tab.C81_witness"
   ],
   "note": "Cells are byte strings; the padding is taken to be nonnegative; headings with span 0 aren't covered by the positive theorem. default_column isn't modelled (it's an argument of add_column)."
  },
  {
   "property": "C82",
   "status": "proved",
   "theorems": [
    "Gomill.Conf.C82_matchup_report",
    "Gomill.Conf.C82_playoff_report",
    "Gomill.Conf.C82_crosstable",
    "Gomill.Conf.C82_games_line",
    "Gomill.Conf.C82_allplayall_report",
    "Gomill.Conf.C82_playoff",
    "Gomill.Conf.C82_results",
    "Gomill.Conf.C82_details",
    "Gomill.Conf.C82_numbers",
    "Gomill.Conf.C82_witness"
   ],
   "note": "Python's formatting of floats which aren't whole numbers (str, %.2f, %7.2f) is a parameter, assumed to give no whitespace other than spaces; floats are rationals. That an average CPU time of exactly 0 for both leaves out the column, and that all jigos are counted for both colours (so a percentage can be over 100: C82_witness), is as in the code."
  },
  {
   "property": "C83",
   "status": "proved",
   "theorems": [
    "Gomill.Conf.C83_cem_parameter",
    "Gomill.Conf.C83_mcts_parameter",
    "Gomill.Conf.C83_cem",
    "Gomill.Conf.C83_mcts",
    "Gomill.Conf.C83_cem_errors",
    "Gomill.Conf.C83_mcts_errors",
    "Gomill.Conf.C83_witness"
   ],
   "note": "Python functions, % formatting, float conversion and unicode lower() are parameters (Fns, World); a traceback is an arbitrary text. Floats are rationals, infinities or NaN. As in the code, NaN is accepted as a variance, and an infinite or NaN komi crashes the MCTS tuner (C83_witness)."
  },
  {
   "property": "C84",
   "status": "proved",
   "theorems": [
    "Gomill.Conf.C84_candidate",
    "Gomill.Conf.C84_errors",
    "Gomill.Conf.C84_shown",
    "Gomill.Conf.C84_codes",
    "Gomill.Conf.C84_job",
    "Gomill.Conf.C84_checks",
    "Gomill.Conf.C84_witness"
   ],
   "note": "User functions are parameters of the model. As in the code, make_candidate returning a tuple can raise TypeError instead of CompetitionError when the message is formatted (the repr parameter may fail)."
  },
  {
   "property": "C85",
   "status": "proved",
   "theorems": [
    "Gomill.Conf.C85_games",
    "Gomill.Conf.C85_playoff",
    "Gomill.Conf.C85_playoff_same",
    "Gomill.Conf.C85_allplayall",
    "Gomill.Conf.C85_allplayall_same",
    "Gomill.Conf.C85_complete",
    "Gomill.Conf.C85_witness"
   ],
   "note": "End-to-end composition of C36, C37, C39, C75, C76 and C82. For playoffs, all the earlier control files are assumed to be for playoffs (so that ghost matchups' player codes are identifiers)."
  },
  {
   "property": "C86",
   "status": "proved",
   "theorems": [
    "Gomill.Mcts.C86_main",
    "Gomill.Mcts.C86_total",
    "Gomill.Mcts.C86_screen",
    "Gomill.Mcts.C86_short",
    "Gomill.Mcts.C86_node_count",
    "Gomill.Mcts.C86_tree",
    "Gomill.Mcts.C86_result",
    "Gomill.Mcts.C86_witness"
   ],
   "note": "`%.3f` and the formatter of parameters are parameters of the model; a report is its list of lines."
  },
  {
   "property": "C87",
   "status": "proved",
   "theorems": [
    "Gomill.Cem.C87_screen",
    "Gomill.Cem.C87_short",
    "Gomill.Cem.C87_saved",
    "Gomill.Cem.C87_reload",
    "Gomill.Cem.C87_history",
    "Gomill.Cem.C87_note",
    "Gomill.Cem.C87_starting",
    "Gomill.Cem.C87_witness"
   ],
   "note": "`%5.2f`, `%4.2f`, `str()` of a candidate's wins and the formatter of parameters are parameters of the model."
  },
  {
   "property": "C88",
   "status": "proved",
   "theorems": [
    "Gomill.Ring.C88_in_order",
    "Gomill.Ring.C88_record",
    "Gomill.Ring.C88_status_file",
    "Gomill.Ring.C88_max_games",
    "Gomill.Ring.C88_end",
    "Gomill.Ring.C88_exception",
    "Gomill.Ring.C88_error_count",
    "Gomill.Ring.C88_ends",
    "Gomill.Ring.C88_history",
    "Gomill.Ring.C88_start",
    "Gomill.Ring.C88_in_process",
    "Gomill.Ring.C88_witness",
    "Gomill.Ring.C88_workers",
    "Gomill.Ring.C88_workers_before"
   ],
   "note": "If the competition reuses the id of a game which failed and then succeeded, previous_error_count includes the failures of the old game (shown in C88_witness): the ringmaster doesn't forget them. Screen, log and history texts aren't part of this model."
  },
  {
   "property": "C89",
   "status": "proved",
   "theorems": [
    "Gomill.Mcts.C89_refines",
    "Gomill.Mcts.C89_counts",
    "Gomill.Mcts.C89_status_file",
    "Gomill.Mcts.C89_no_internal_error",
    "Gomill.Mcts.C89_can_start",
    "Gomill.Mcts.C89_complete",
    "Gomill.Mcts.C89_ids",
    "Gomill.Mcts.C89_witness"
   ],
   "note": "The control file (splits, max_depth, number_of_games, the scale functions' values for path [0]) is the same in all the runs. A game id is the game number."
  },
  {
   "property": "C90",
   "status": "proved",
   "theorems": [
    "Gomill.Cem.C90_refines",
    "Gomill.Cem.C90_results",
    "Gomill.Cem.C90_status_file",
    "Gomill.Cem.C90_no_internal_error",
    "Gomill.Cem.C90_can_start",
    "Gomill.Cem.C90_complete",
    "Gomill.Cem.C90_ids",
    "Gomill.Cem.C90_failures",
    "Gomill.Cem.C90_witness"
   ],
   "note": "The control file is the same in all the runs (C66 has changes of settings between runs). `C90_refines` carries C65's theorems about the distribution over to runs by the ringmaster."
  },
  {
   "property": "C91",
   "status": "proved",
   "theorems": [
    "Gomill.Conf.C91_answers",
    "Gomill.Conf.C91_loads",
    "Gomill.Conf.C91_clean",
    "Gomill.Conf.C91_game_ids",
    "Gomill.Conf.C91_refused",
    "Gomill.Conf.C91_unchanged",
    "Gomill.Conf.C91_unknown_id",
    "Gomill.Conf.C91_witness"
   ],
   "note": "The object being 'live' during a run is not modelled (the docstring says not to rely on it). Engine descriptions in the status file are outside the model."
  },
  {
   "property": "C92",
   "status": "proved",
   "theorems": [
    "Gomill.Gtp.Session.C92_lines",
    "Gomill.Gtp.Session.C92_session",
    "Gomill.Gtp.Session.C92_endings",
    "Gomill.Gtp.Session.C92_output",
    "Gomill.Gtp.Session.C92_so_far",
    "Gomill.Gtp.Session.C92_newline",
    "Gomill.Gtp.Session.C92_interactive",
    "Gomill.Gtp.Session.C92_registered",
    "Gomill.Gtp.Session.C92_list_commands",
    "Gomill.Gtp.Session.C92_protocol",
    "Gomill.Gtp.Session.C92_outcomes",
    "Gomill.Gtp.Session.C92_completer",
    "Gomill.Gtp.Session.C92_boolean",
    "Gomill.Gtp.Session.C92_int",
    "Gomill.Gtp.Session.C92_witness"
   ],
   "note": "Handlers raising something which isn't an Exception (KeyboardInterrupt) and unicode responses are outside the model."
  },
  {
   "property": "C93",
   "status": "proved",
   "theorems": [
    "Gomill.Mcts.C93_choice",
    "Gomill.Mcts.C93_explores",
    "Gomill.Mcts.C93_space",
    "Gomill.Mcts.C93_near",
    "Gomill.Mcts.C93_needs_coefficient",
    "Gomill.Mcts.C93_ringmaster"
   ],
   "note": "C93_choice: how a simulation's path is determined by the history. C93_explores, C93_space: the exploration guarantee for the tuner on its own (any sequence of calls with a bounded number of games in progress). C93_ringmaster: the same under the ringmaster and the job manager, with nothing assumed about the number of games in progress (C88_workers bounds it by the number of workers, which is at most 1023). C93_needs_coefficient: with win rates as urgencies it's false, in a concrete configuration. The urgencies are rational numbers assumed only to be within a bounded distance of the real UCT formula (the program calculates them in floating point); C93_near shows that such urgencies exist."
  },
  {
   "property": "C94",
   "status": "proved",
   "theorems": [
    "Gomill.Gtp.C94_outcome",
    "Gomill.Gtp.C94_board",
    "Gomill.Gtp.C94_boardsize",
    "Gomill.Gtp.C94_clear_board",
    "Gomill.Gtp.C94_place_free_handicap",
    "Gomill.Gtp.C94_showboard",
    "Gomill.Gtp.C94_steady",
    "Gomill.Gtp.C94_size",
    "Gomill.Gtp.C94_response",
    "Gomill.Gtp.C94_session",
    "Gomill.Gtp.C94_show",
    "Gomill.Gtp.C94_witness"
   ],
   "note": "C94_outcome, C94_response: the three-way classification (Succeeds, Breaks in Spec/GtpStateEngine). C94_board, C94_size: what always holds of the state. C94_boardsize, C94_clear_board, C94_place_free_handicap, C94_showboard, C94_show: effects. C94_session: at every point of a session. As in C34, no failing loadsgf may have changed the board size (that's the bug C35_loadsgf describes); C94_steady gives circumstances in which that can't happen. gomill-savesgf is C56's."
  },
  {
   "property": "C95",
   "status": "proved",
   "theorems": [
    "Gomill.Ring.Live.C95_told",
    "Gomill.Ring.Live.C95_record",
    "Gomill.Ring.Live.C95_logged_first",
    "Gomill.Ring.Live.C95_quiet",
    "Gomill.Ring.Live.C95_terminal",
    "Gomill.Ring.Live.C95_stop",
    "Gomill.Ring.Live.C95_stopped",
    "Gomill.Ring.Live.C95_ctrlx",
    "Gomill.Ring.Live.C95_manager",
    "Gomill.Ring.Live.C95_start",
    "Gomill.Ring.Live.C95_same_run",
    "Gomill.Ring.Live.C95_end",
    "Gomill.Ring.Live.C95_witness"
   ],
   "note": "C95_told: what goes with each effect, before and after (Told in Spec/RingLive). C95_record: the record of C88 is part of it; the status file. C95_logged_first: even if the competition fails. C95_quiet. C95_stop, C95_stopped, C95_ctrlx: stopping. C95_terminal: the terminal's mode. C95_manager: every run of either job manager is a Life. C95_start, C95_same_run: refinement to C88's runs. C95_end: the end of the log. Failures to write the log, history, stdout and stderr, and KeyboardInterrupt, aren't modelled."
  },
  {
   "property": "C96",
   "status": "proved",
   "theorems": [
    "Gomill.Ring.Live.C96_screen",
    "Gomill.Ring.Live.C96_first_screen",
    "Gomill.Ring.Live.C96_max_games",
    "Gomill.Ring.Live.C96_not_negative",
    "Gomill.Ring.Live.C96_in_progress",
    "Gomill.Ring.Live.C96_type_error",
    "Gomill.Ring.Live.C96_witness"
   ],
   "note": "C96_screen, C96_first_screen: the screen (Shows; screenful and statusBox in Spec/RingLive). C96_max_games, C96_not_negative: the number of games left. C96_in_progress: the games listed are the ones in flight. C96_type_error: the bug."
  },
  {
   "property": "C97",
   "status": "proved",
   "theorems": [
    "Gomill.Tourn.C97_same_world",
    "Gomill.Tourn.C97_every_world",
    "Gomill.Tourn.C97_history_file",
    "Gomill.Tourn.C97_shown",
    "Gomill.Tourn.C97_results",
    "Gomill.Tourn.C97_live",
    "Gomill.Tourn.C97_ids",
    "Gomill.Tourn.C97_witness"
   ],
   "note": "C97_same_world, C97_every_world: the tournaments of C36-C39 are the competitions of C88 with `competition`. C97_live: so are the runs with log, screen and terminal (C95), after any history. C97_history_file: HistoryLine in Spec/TournRing. C97_results: the results in memory and in the status file. C97_ids: distinct game ids; if the run has ended with an exception this is said of all but the last result."
  },
  {
   "property": "C98",
   "status": "proved",
   "theorems": [
    "Gomill.Kgs.C98_transparent",
    "Gomill.Kgs.C98_genmove",
    "Gomill.Kgs.C98_colour",
    "Gomill.Kgs.C98_game_over",
    "Gomill.Kgs.C98_spaces",
    "Gomill.Kgs.C98_words",
    "Gomill.Kgs.C98_recorded",
    "Gomill.Kgs.C98_start",
    "Gomill.Kgs.C98_witness"
   ],
   "note": "C98_game_over says what is sent for every listing; with C98_words for when the words are accepted by the controller. C98_spaces: a defect in the script. C98_recorded (with C56_file): the file has the player's name. C56_escape: the escaping of gomill-savesgf can't pass a backslash followed by an underscore."
  },
  {
   "property": "C99",
   "status": "proved",
   "theorems": [
    "Gomill.Scripts.C99_show",
    "Gomill.Scripts.C99_show_reads",
    "Gomill.Scripts.C99_show_loadsgf",
    "Gomill.Scripts.C99_show_loadsgf_ok",
    "Gomill.Scripts.C99_split_game",
    "Gomill.Scripts.C99_split_files",
    "Gomill.Scripts.C99_split_paths",
    "Gomill.Scripts.C99_forfeits",
    "Gomill.Scripts.C99_witness"
   ],
   "note": "C99_split_game assumes that the root names its encoding by at most one CA value (Declares) which the codec can transcode, and that the file's name is valid UTF-8. When serialising fails the script leaves an empty file (C99_witness)."
  },
  {
   "property": "C100",
   "status": "proved",
   "theorems": [
    "Gomill.Conf.C100_parameter",
    "Gomill.Conf.C100_config",
    "Gomill.Conf.C100_config_errors",
    "Gomill.Conf.C100_arguments",
    "Gomill.Conf.C100_parameters",
    "Gomill.Conf.C100_game",
    "Gomill.Conf.C100_message",
    "Gomill.Conf.C100_ringmaster",
    "Gomill.Conf.C100_files",
    "Gomill.Conf.C100_prepare",
    "Gomill.Conf.C100_reply",
    "Gomill.Conf.C100_setup",
    "Gomill.Conf.C100_options",
    "Gomill.Conf.C100_program",
    "Gomill.Conf.C100_negative",
    "Gomill.Conf.C100_witness"
   ],
   "note": "Values are given to the code by CLOP as text; how floats are read and shown is unknown to the model. Deviations proved: a negative parameter value is taken for an option by optparse, so no game is played (C100_negative); a control file whose extension is .clop or .elog isn't refused although it is overwritten or appended to (C100_files); an infinite or NaN komi makes setup fail (C100_setup)."
  },
  {
   "property": "C101",
   "status": "proved",
   "theorems": [
    "Gomill.Gtp.C101_codes",
    "Gomill.Gtp.C101_series",
    "Gomill.Gtp.C101_terminates",
    "Gomill.Gtp.C101_witness"
   ],
   "note": "optparse and shlex aren't modelled. Deviations proved as cases of C101_series: an engine which says it uses a GTP version other than 2, or whose version ends in whitespace, makes a traceback, and the engines aren't closed (Series.refused); a command without words makes a traceback (badCommand); so does a margin that's infinite or NaN; the engines aren't closed if a file can't be opened (Ends.noFile)."
  },
  {
   "property": "C102",
   "status": "proved",
   "theorems": [
    "Gomill.Gtp.C102_files",
    "Gomill.Gtp.C102_names",
    "Gomill.Gtp.C102_witness"
   ],
   "note": "The assumption about UTF-8 is needed: C101_series has the case where the record of a game can't be made (Unwritable), and C69_not_utf8 shows such a run of a job."
  },
  {
   "property": "C103",
   "status": "proved",
   "theorems": [
    "Gomill.Gtp.Stateful.C103_commands",
    "Gomill.Gtp.Stateful.C103_genmove",
    "Gomill.Gtp.Stateful.C103_explain",
    "Gomill.Gtp.Stateful.C103_resign_p",
    "Gomill.Gtp.Stateful.C103_extremes",
    "Gomill.Gtp.Stateful.C103_answers",
    "Gomill.Gtp.Stateful.C103_session",
    "Gomill.Gtp.Stateful.C103_main",
    "Gomill.Gtp.Stateful.C103_witness"
   ],
   "note": "The random functions are only assumed to return what Python promises (a number from 0 up to 1; one of the things to choose from). C103_session needs the assumption about SGF files because of loadsgf's bug (C94); C103_main says that the program is such a session, with stdin not a terminal."
  },
  {
   "property": "C104",
   "status": "proved",
   "theorems": [
    "Gomill.Gtp.TestPlayer.C104_commands",
    "Gomill.Gtp.TestPlayer.C104_force_error",
    "Gomill.Gtp.TestPlayer.C104_delayed",
    "Gomill.Gtp.TestPlayer.C104_pass",
    "Gomill.Gtp.TestPlayer.C104_delayed_error",
    "Gomill.Gtp.TestPlayer.C104_others",
    "Gomill.Gtp.TestPlayer.C104_witness"
   ],
   "note": "The moment a process kills itself there's no answer, and nothing said about later commands means anything. What a session does with the answers is C92."
  },
  {
   "property": "C105",
   "status": "proved",
   "theorems": [
    "Gomill.Gtp.Mogo.C105_start",
    "Gomill.Gtp.Mogo.C105_own",
    "Gomill.Gtp.Mogo.C105_others",
    "Gomill.Gtp.Mogo.C105_witness"
   ],
   "note": "Starting the process isn't modelled: the theorems are for any controller. What happens to the commands which are sent on, and at the end of the session, is C61."
  }
 ]
}