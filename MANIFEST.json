{
 "claims": [
  {
   "property": "C01",
   "status": "proved",
   "theorems": [
    "Model.C01_push",
    "Model.C01_get_color"
   ],
   "note": "Both build profiles. The bound of 65,534 earlier pushes is the limit of the 16-bit group index (C27)."
  },
  {
   "property": "C02",
   "status": "proved",
   "theorems": [
    "Model.C02_group_is_component",
    "Model.C02_stone_in_one_group",
    "Model.C02_same_group_iff_linked"
   ],
   "note": "Group index equality iff Linked (path of same-coloured adjacent stones)."
  },
  {
   "property": "C03",
   "status": "proved",
   "theorems": [
    "Model.C03_liberties"
   ],
   "note": "All liberty queries of a live group against the empty neighbours of its stones."
  },
  {
   "property": "C04",
   "status": "proved",
   "theorems": [
    "Model.C04_iter_stones"
   ],
   "note": "The circular iterator ends, lists each stone once, starts at origin (smallest) and ends at last."
  },
  {
   "property": "C05",
   "status": "proved",
   "theorems": [
    "Model.C05_number_of_stones"
   ],
   "note": "Against the count of coloured points of get_color."
  },
  {
   "property": "C06",
   "status": "proved",
   "theorems": [
    "Model.C06_hash",
    "Model.C06_hash_of_position"
   ],
   "note": "Hash is the XOR of the keys of the stones, hence a function of the position."
  },
  {
   "property": "C07",
   "status": "proved",
   "theorems": [
    "Model.C07_eq",
    "Model.C07_refl",
    "Model.C07_symm",
    "Model.C07_trans"
   ],
   "note": "== iff same size and same colours; equivalence relation; equal boards hash alike."
  },
  {
   "property": "C08",
   "status": "proved",
   "theorems": [
    "Model.C08_remove_chain"
   ],
   "note": "Effect on colours, on the other groups and on their liberties."
  },
  {
   "property": "C09",
   "status": "proved",
   "theorems": [
    "Model.C09_play_local",
    "Model.C09_play"
   ],
   "note": "C09_play: rule-book move when no group is dead before; C09_play_local: every reachable game (also with dead groups set up elsewhere, which the code leaves alone)."
  },
  {
   "property": "C10",
   "status": "proved",
   "theorems": [
    "Model.C10_no_dead_groups"
   ],
   "note": "Invariant over all try_play/resume/set_komi sequences."
  },
  {
   "property": "C11",
   "status": "proved",
   "theorems": [
    "Model.C11_play",
    "Model.C11_conservation"
   ],
   "note": "Per move and as a conservation law over whole games."
  },
  {
   "property": "C12",
   "status": "proved",
   "theorems": [
    "Model.C12_check_suicide"
   ],
   "note": "Against Spec.Suicide."
  },
  {
   "property": "C13",
   "status": "proved",
   "theorems": [
    "Model.C13_refused_unchanged",
    "Model.C13_accepted_is_play",
    "Model.C13_paused",
    "Model.C13_decision"
   ],
   "note": "Decision order, no side effects when refused, accepted move is play."
  },
  {
   "property": "C14",
   "status": "proved",
   "theorems": [
    "Model.C14_exact",
    "Model.C14_check_ko",
    "Model.C14_no_ko_after_pass"
   ],
   "note": "C14_check_ko: after a play, ko iff the previous position would be restored (plays that are not suicide); C14_exact: the answer in every state and for every point, spelled out on positions; C14_no_ko_after_pass."
  },
  {
   "property": "C15",
   "status": "partial",
   "theorems": [
    "Model.C15_no_repetition_partial",
    "Model.C15_refute",
    "Model.C15_false",
    "Model.C15_false_capture"
   ],
   "note": "False: super-ko is only looked for when the move captures and at least three positions are recorded. C15_false and C15_false_capture are two ways to recreate an earlier position. The partial theorem says which repetitions are excluded; C80 is what the check computes."
  },
  {
   "property": "C16",
   "status": "proved",
   "theorems": [
    "Model.C16_play",
    "Model.C16_pass",
    "Model.C16_resign",
    "Model.C16_passes_le_two",
    "Model.C16_two_passes_end",
    "Model.C16_paused",
    "Model.C16_resume"
   ],
   "note": "Each clause separately; C16_paused for any number of refused calls."
  },
  {
   "property": "C17",
   "status": "proved",
   "theorems": [
    "Model.C17_legals_by",
    "Model.C17_legals",
    "Model.C17_check_mono",
    "Model.C17_any_length",
    "Model.C17_listed_and_panics",
    "Model.C17_legals_mono"
   ],
   "note": "On every reachable game, set-up positions included: exact list, order, no repetition; monotone in the flags. C17_any_length has no bound on the number of stones; C17_listed_and_panics shows that its exception occurs."
  },
  {
   "property": "C18",
   "status": "partial",
   "theorems": [
    "Model.C18_get_empty_coords",
    "Model.C18_pseudo_legals",
    "Model.C18_pseudo_legals_vec",
    "Model.C18_pseudo_legals_vec_partial",
    "Model.C18_false",
    "Model.C18_empty_coords_iff"
   ],
   "note": "False for pseudo_legals_vec in debug builds from size 16 on (u8 product overflows): C18_false. Everything else proved: get_empty_coords and pseudo_legals on square boards, and they are right on no other size (C18_empty_coords_iff); pseudo_legals_vec in release builds on every size whose width divides its height. C88 is the exact result."
  },
  {
   "property": "C19",
   "status": "proved",
   "theorems": [
    "Model.C19_group_any_colour",
    "Model.C19_group_from_point",
    "Model.C19_chains_from_stones"
   ],
   "note": "Termination and exactness of the region search, also when asked with another colour than the one shown, and of get_chains_from_stones."
  },
  {
   "property": "C20",
   "status": "proved",
   "theorems": [
    "Model.C20_territories",
    "Model.C20_calculate_territories"
   ],
   "note": "For every iteration order of the hash set."
  },
  {
   "property": "C21",
   "status": "proved",
   "theorems": [
    "Model.C21_calculate_score_by",
    "Model.C21_calculate_score"
   ],
   "note": "Exact f32 arithmetic for half-integer komi."
  },
  {
   "property": "C22",
   "status": "proved",
   "theorems": [
    "Model.C22_recorded",
    "Model.C22_two_passes",
    "Model.C22_none_iff",
    "Model.C22_nan_komi",
    "Model.C22_small_komi",
    "Model.C22_every_komi_false"
   ],
   "note": "C86 has every komi. C22_every_komi_false: a komi of 2^-24 gives a draw with different scores."
  },
  {
   "property": "C23",
   "status": "partial",
   "theorems": [
    "Model.C23_from_slice",
    "Model.C23_round_trip_prefix_partial",
    "Model.C23_round_trip_partial",
    "Model.C23_false"
   ],
   "note": "False on every size but 19 (to_vec always has 361 cells): C23_false. Proved for 19, and on every size for the first n*n cells. C88 is the exact result."
  },
  {
   "property": "C24",
   "status": "proved",
   "theorems": [
    "Model.C24_order_independent"
   ],
   "note": "Equal boards, hashes, groups and liberties for every permutation."
  },
  {
   "property": "C25",
   "status": "proved",
   "theorems": [
    "Model.C25_empty",
    "Model.C25_get",
    "Model.C25_set",
    "Model.C25_merge",
    "Model.C25_iter_ones",
    "Model.C25_ext"
   ],
   "note": "Every 46-byte array, every index."
  },
  {
   "property": "C26",
   "status": "partial",
   "theorems": [
    "Model.C26_first_stone_iff",
    "Model.C26_in_range_partial",
    "Model.C26_injective_iff_partial",
    "Model.C26_inverse_iff_partial",
    "Model.C26_square_partial",
    "Model.C26_false",
    "Model.C26_false_board"
   ],
   "note": "False for non-square boards (height is used as row stride): C26_false. Exact condition proved for every size: the conversions are inverse iff the width divides the height, and exactly on these sizes does the first stone get its liberties right (C26_first_stone_iff)."
  },
  {
   "property": "C27",
   "status": "partial",
   "theorems": [
    "Model.C27_run_partial",
    "Model.C27_returns_or_panics_partial",
    "Model.C27_false",
    "Model.C27_full_table",
    "Model.C27_queries_partial"
   ],
   "note": "False: group slots are never reused, so some sequence of accepted calls ends in a panic (C27_false; C27_full_table says when). The partial theorems: no panic within 65,535 calls, never anything but a panic (no endless loop), and no panic at all in territories, scores, outcome and equality. C87 says exactly when the panic happens."
  },
  {
   "property": "C28",
   "status": "partial",
   "theorems": [
    "Model.C28_verification_partial",
    "Model.C28_false"
   ],
   "note": "False when the rule allows suicide (C28_false). Proved for plays that are not suicide. C81 is the exact answer."
  },
  {
   "property": "C29",
   "status": "proved",
   "theorems": [
    "Model.C29_build",
    "Model.C29_setters",
    "Model.C29_legal_moves",
    "Model.C29_three_passes"
   ],
   "note": "C29_setters starts from the calls of the setters, C29_build from the fields they leave; moves are applied with play; three passes panic."
  },
  {
   "property": "C30",
   "status": "partial",
   "theorems": [
    "Model.Sgf.C30_root_partial",
    "Model.Sgf.C30_from_sgf_partial",
    "Model.Sgf.C30_exact",
    "Model.Sgf.C30_false_colour",
    "Model.Sgf.C30_false_order",
    "Model.Sgf.C30_false"
   ],
   "note": "False: only the first property of a node is looked at and the recorded colour is ignored (C30_false_order, C30_false_colour). As stated it is proved for records where the move comes first and colours alternate. C82 says what happens to every record."
  },
  {
   "property": "C31",
   "status": "proved",
   "theorems": [
    "Model.C31_sound",
    "Model.C31_complete",
    "Model.C31_exact",
    "Model.C31_capture_not_eye"
   ],
   "note": "Soundness, completeness for four safe corners, and the exact two-step shape."
  },
  {
   "property": "C32",
   "status": "proved",
   "theorems": [
    "Model.C32_connected_points",
    "Model.C32_at_least_two",
    "Model.C32_connected_groups"
   ],
   "note": "All neighbour queries."
  },
  {
   "property": "C33",
   "status": "partial",
   "theorems": [
    "Model.C33_coords_by_color_partial",
    "Model.C33_false_empty",
    "Model.C33_false_large",
    "Model.C33_false_witness"
   ],
   "note": "False for EMPTY (all points are listed) and for sizes from 16 on (u8 product: a debug build panics for every colour, a release build only looks at the first n*n mod 256 points). C83 is the exact result for every colour, size and build."
  },
  {
   "property": "C34",
   "status": "proved",
   "theorems": [
    "Model.C34_get_stones",
    "Model.C34_to_vec"
   ],
   "note": "Row-major list of stones."
  },
  {
   "property": "C35",
   "status": "partial",
   "theorems": [
    "Model.C35_get_empty_idx_partial",
    "Model.C35_false"
   ],
   "note": "False: get_empty_idx lists the occupied indices (C35_false). C83 is the exact result."
  },
  {
   "property": "C36",
   "status": "partial",
   "theorems": [
    "Model.C36_matrix_partial",
    "Model.C36_matrix_19",
    "Model.C36_false"
   ],
   "note": "False on every size but 19 x 19, rectangular ones included: matrix() has 361/w rows (C36_false). Proved for 19; on every square size the first n rows are right and all later rows are empty. C83 is the exact result."
  },
  {
   "property": "C37",
   "status": "proved",
   "theorems": [
    "Model.C37_pretty_string",
    "Model.C37_inj"
   ],
   "note": "Exact text; equal texts iff equal boards."
  },
  {
   "property": "C38",
   "status": "partial",
   "theorems": [
    "Model.C38_stays_over_partial",
    "Model.C38_outcome_partial",
    "Model.C38_paused_partial",
    "Model.C38_false_stone",
    "Model.C38_false_outcome"
   ],
   "note": "False: try_play accepts stones and further resignations after a resignation. The partial theorems say what stays; C78 is the exact result of any sequence of calls."
  },
  {
   "property": "C39",
   "status": "proved",
   "theorems": [
    "Model.C39_will_capture"
   ],
   "note": "On every reachable game whose groups all have liberties; against the set of captured stones."
  },
  {
   "property": "C40",
   "status": "partial",
   "theorems": [
    "Model.C40_alias_play_partial",
    "Model.C40_alias_square_partial",
    "Model.C40_false_ko",
    "Model.C40_false_suicide",
    "Model.C40_off_table_partial",
    "Model.C40_false_alias",
    "Model.C40_false_hidden",
    "Model.C40_false"
   ],
   "note": "False: an off-board coordinate whose index is inside the table is played on another point, or into hidden storage; through such a coordinate try_play accepts a forbidden ko recapture and a forbidden suicide. Proved: coordinates whose index is outside the table panic; play of a coordinate with the index of a board point is play of that point. C77 says exactly what play does in every case."
  },
  {
   "property": "C41",
   "status": "proved",
   "theorems": [
    "Model.C41_no_two_ply_repetition"
   ],
   "note": "Two accepted plays under KO and SUICIDE never restore the position."
  },
  {
   "property": "C42",
   "status": "proved",
   "theorems": [
    "Model.C42_history",
    "Model.C42_never_shortened"
   ],
   "note": "Order of first occurrence, no repetition, never shortened."
  },
  {
   "property": "C43",
   "status": "proved",
   "theorems": [
    "Model.C43_put_handicap",
    "Model.C43_same_as_builder",
    "Model.C43_empty_differs"
   ],
   "note": "Non-empty lists; the empty list is treated in C43_empty_differs."
  },
  {
   "property": "C44",
   "status": "proved",
   "theorems": [
    "Model.C44_colour_symmetry",
    "Model.C44_in_step",
    "Model.C44_both_panic",
    "Model.C44_score"
   ],
   "note": "Whole games: run of calls on the colour-exchanged start gives the same answers and the exchanged states; scores without komi exchanged. C44_in_step adds the panics of games that are too long for the group table; C44_both_panic shows that they occur."
  },
  {
   "property": "C45",
   "status": "partial",
   "theorems": [
    "Model.C45_floating_stones_partial",
    "Model.C45_false_witness",
    "Model.C45_false"
   ],
   "note": "False: the groups with three or more eyes are returned, and only if their index is below the number of groups (C45_false). C85 is the exact result."
  },
  {
   "property": "C46",
   "status": "proved",
   "theorems": [
    "Model.C46_fast_play_random",
    "Model.C46_playout",
    "Model.C46_legals_moves",
    "Model.C46_empty_over",
    "Model.C46_any_length"
   ],
   "note": "Every shuffle; whole play-outs (C46_playout). C46_any_length has no bound on the stones put."
  },
  {
   "property": "C47",
   "status": "partial",
   "theorems": [
    "Model.C47_chain_stones_partial",
    "Model.C47_false"
   ],
   "note": "True for indices; false for coordinates (C47_false): the board index is used as group index. C88 is the exact result."
  },
  {
   "property": "C48",
   "status": "proved",
   "theorems": [
    "Model.C48_defined",
    "Model.C48_distinct",
    "Model.C48_one_difference",
    "Model.C48_collision"
   ],
   "note": "Whole table checked by kernel evaluation; a concrete collision of two positions."
  },
  {
   "property": "C49",
   "status": "proved",
   "theorems": [
    "Model.C49_refines",
    "Model.C49_refines_every_rule",
    "Model.C49_accepted",
    "Model.C49_total"
   ],
   "note": "Refinement to Spec.State over whole call sequences: C49_refines for rules that forbid suicide or allow ko (both rules of the crate), C49_refines_every_rule with the ko test of C14_exact for the rest."
  },
  {
   "property": "C50",
   "status": "partial",
   "theorems": [
    "Model.C50_try_play_partial",
    "Model.C50_play_empty_partial",
    "Model.C50_false",
    "Model.C50_always_false"
   ],
   "note": "False of every reachable game without dead groups, at every occupied point, under every rule (C50_always_false). What happens instead is C76. try_play refuses."
  },
  {
   "property": "C51",
   "status": "partial",
   "theorems": [
    "Model.C51_evaluate_leaf_partial",
    "Model.C51_false"
   ],
   "note": "False: a drawn game panics (C51_false). C84 is the exact answer."
  },
  {
   "property": "C52",
   "status": "partial",
   "theorems": [
    "Model.C52_in_step_partial",
    "Model.C52_board_symmetry_partial",
    "Model.C52_accepted_partial",
    "Model.C52_territories",
    "Model.C52_score",
    "Model.C52_rotate",
    "Model.C52_false_witness",
    "Model.C52_false"
   ],
   "note": "False for rules with FILLEYE: the eye test depends on the order of the corners (C52_false). Proved for every other rule (both rules of the crate) and every symmetry; territories and scores always. C89 is the exact result for rules with FILLEYE."
  },
  {
   "property": "C53",
   "status": "partial",
   "theorems": [
    "Model.C53_new_partial",
    "Model.C53_of_usize",
    "Model.C53_wraps",
    "Model.C53_false"
   ],
   "note": "False from 256 on: sides are taken modulo 256, so that Custom(265, 265) is a 9 by 9 board (C53_wraps, C53_false). Proved for smaller sides; C79 covers all."
  },
  {
   "property": "C54",
   "status": "proved",
   "theorems": [
    "Model.C54_names",
    "Model.C54_japanese_play",
    "Model.C54_chinese_play",
    "Model.C54_japanese_score",
    "Model.C54_chinese_score"
   ],
   "note": "Names, play (refinement to the abstract game with the prohibitions spelled out) and counting."
  },
  {
   "property": "C55",
   "status": "proved",
   "theorems": [
    "Model.C55_winner_any_exact",
    "Model.C55_winner_any",
    "Model.C55_winner_by_score",
    "Model.C55_recorded"
   ],
   "note": "By score and recorded; C55_winner_any for every komi and every size of board, C55_winner_any_exact without rounding (the game of C100_outside is one)."
  },
  {
   "property": "C56",
   "status": "partial",
   "theorems": [
    "Model.C56_resign_partial",
    "Model.C56_resigner_wins",
    "Model.C56_false"
   ],
   "note": "False: the player named in the resignation is recorded as the winner, in every game (C56_resigner_wins, C56_false). The partial theorem has the rest; C78 is the exact result of any sequence of calls."
  },
  {
   "property": "C57",
   "status": "partial",
   "theorems": [
    "Model.C57_stones_played",
    "Model.C57_prisoners",
    "Model.C57_playout_partial",
    "Model.C57_false_witness",
    "Model.C57_false",
    "Model.C57_small"
   ],
   "note": "False: under the Japanese rule a play-out from the empty 2 by 2 board can run in a cycle until the group table is full and then panics (C57_false). The partial theorem: it makes accepted moves only and always stops, with a game that is over or with a panic for a full group table; C57_small: never a panic under super-ko on at most nine points."
  },
  {
   "property": "C58",
   "status": "proved",
   "theorems": [
    "Model.C58_from_three_positions",
    "Model.C58_from_empty",
    "Model.C58_never_panics",
    "Model.C58_suicide_needed"
   ],
   "note": "From an empty board, and from any start once three positions have been played from. Forbidden suicide is part of the claim; C58_suicide_needed shows that the bound fails without it."
  },
  {
   "property": "C59",
   "status": "proved",
   "theorems": [
    "Model.C59_any_size",
    "Model.C59_area_territory"
   ],
   "note": "Square boards with the start kept apart; C59_any_size for every size, whatever is listed as territory."
  },
  {
   "property": "C60",
   "status": "proved",
   "theorems": [
    "Model.C60_area_total"
   ],
   "note": "Every reachable game."
  },
  {
   "property": "C61",
   "status": "proved",
   "theorems": [
    "Model.C61_same_groups",
    "Model.C61_rebuild"
   ],
   "note": "Groups, and rebuilding in any order."
  },
  {
   "property": "C62",
   "status": "proved",
   "theorems": [
    "Model.C62_in_step",
    "Model.C62_legals_in_step",
    "Model.C62_out_of_step",
    "Model.C62_count_matters",
    "Model.C62_score",
    "Model.C62_same_future",
    "Model.C62_legals"
   ],
   "note": "C62_same_future: runs on which both return. C62_in_step: they return or panic together if the two games used as many group records. C62_out_of_step: otherwise they cannot always. C62_count_matters: such games exist. C62_legals_in_step: the same for legals_by."
  },
  {
   "property": "C63",
   "status": "proved",
   "theorems": [
    "Model.C63_all_boards",
    "Model.C63_all_games",
    "Model.C63_all_runs",
    "Model.C63_boards",
    "Model.C63_games",
    "Model.C63_builders",
    "Model.C63_same_boards",
    "Model.C63_same_games",
    "Model.C63_same_runs",
    "Model.C63_converse_false"
   ],
   "note": "Board, game, builder and SGF functions that depend on the profile, one by one. C63_all_boards, C63_all_games and C63_all_runs have no bound on the number of stones. C63_converse_false: outside the preconditions a release build accepts what a debug build refuses."
  },
  {
   "property": "C64",
   "status": "proved",
   "theorems": [
    "Model.C64_any_size",
    "Model.C64_any_size_exact",
    "Model.C64_last_komi",
    "Model.C64_score"
   ],
   "note": "Runs in any state, and the effect on the score; C64_any_size for every komi and size."
  },
  {
   "property": "C65",
   "status": "proved",
   "theorems": [
    "Model.C65_board_point",
    "Model.C65_board",
    "Model.C65_board_iff",
    "Model.C65_game_point",
    "Model.C65_game"
   ],
   "note": "With the exceptions stated as equivalences (C65_board_iff, last part of C65_game) or as the 65535 limit (Safe)."
  },
  {
   "property": "C66",
   "status": "partial",
   "theorems": [
    "Model.C66_iter_returns",
    "Model.C66_iter_panics",
    "Model.C66_iter_never_ends",
    "Model.C66_chain_stones",
    "Model.C66_size_hint_partial",
    "Model.C66_size_hint_false"
   ],
   "note": "next() is right, also for arbitrary link arrays (returns, panics or never ends exactly as the collected walk). size_hint never counts down: C66_size_hint_false."
  },
  {
   "property": "C67",
   "status": "partial",
   "theorems": [
    "Model.C67_round",
    "Model.C67_ends_partial",
    "Model.C67_dead_stones",
    "Model.C67_small",
    "Model.C67_over",
    "Model.C67_false"
   ],
   "note": "Ends under every rule (C67_ends_partial), with a finished game or with a panic whose cause is a full group table; a panic is possible (C67_false, Japanese rule on 2 x 2) and impossible under a super-ko rule on at most nine points (C67_small)."
  },
  {
   "property": "C68",
   "status": "proved",
   "theorems": [
    "Model.C68_life",
    "Model.C68_two_eyes",
    "Model.C68_refused",
    "Model.C68_simulation",
    "Model.C68_not_dead",
    "Model.C68_playout"
   ],
   "note": "Benson's criterion on positions (Spec/Life); where suicide is allowed every point of a region must touch the group, because a suicide can empty points again."
  },
  {
   "property": "C69",
   "status": "proved",
   "theorems": [
    "Model.C69_every_position",
    "Model.C69_exactly"
   ],
   "note": "Both directions; the order of the stones is chosen so that each has an empty neighbour when it is played."
  },
  {
   "property": "C70",
   "status": "proved",
   "theorems": [
    "Model.C70_new",
    "Model.C70_op",
    "Model.C70_ops",
    "Model.C70_queries",
    "Model.C70_table_op",
    "Model.C70_table",
    "Model.C70_table_iter"
   ],
   "note": "The set and the numbering are specified with predicates and functions on numbers, without bits or vectors."
  },
  {
   "property": "C71",
   "status": "proved",
   "theorems": [
    "Model.C71_index",
    "Model.C71_every_index",
    "Model.C71_defaults",
    "Model.C71_conversions"
   ],
   "note": "The same does not hold for chain_stones, which takes a group index (C47_false)."
  },
  {
   "property": "C72",
   "status": "proved",
   "theorems": [
    "Model.C72_smaller",
    "Model.C72_nine",
    "Model.C72_crash",
    "Model.C72_chinese",
    "Model.C72_small",
    "Model.C72_suicide",
    "Model.C72_exact",
    "Model.C72_two_kos",
    "Model.C72_japanese"
   ],
   "note": "A limitation of the code, stated as a theorem. C72_smaller covers every size of C72_crash and more (comb_sizes); C72_nine and C72_chinese give 8 x 8, 9 x 9, 13 x 13 and 19 x 19 under the Chinese rule. C72_small: all sizes from 3 points without super-ko; C72_two_kos is its part from width 4, and C72_japanese gives all squares from 4 x 4. C72_suicide: all sizes from 3 points where suicide is allowed. C72_exact: for these rules, and for all rules on at most nine points, there is such a game if and only if Endless holds. With super-ko and suicide both forbidden nothing is claimed between the nine points of C58 and the sizes of C72_smaller. In all of them the game goes on: nobody has resigned and there are no two passes."
  },
  {
   "property": "C73",
   "status": "proved",
   "theorems": [
    "Model.C73_perft",
    "Model.C73_room",
    "Model.C73_eight",
    "Model.C73_seven",
    "Model.C73_first_plies",
    "Model.C73_benchmark"
   ],
   "note": "C73_perft for every depth; C73_first_plies and C73_benchmark give the first values (C127 the fourth). C73_seven and C73_eight say exactly when the u64 overflows first; C73_room is the lower bound used."
  },
  {
   "property": "C74",
   "status": "proved",
   "theorems": [
    "Model.C74_next_to_empty",
    "Model.C74_room",
    "Model.C74_readme"
   ],
   "note": "C74_next_to_empty, C74_room, C74_readme."
  },
  {
   "property": "C75",
   "status": "proved",
   "theorems": [
    "Model.C75_policies",
    "Model.C75_play_game",
    "Model.C75_same_games",
    "Model.C75_round",
    "Model.C75_slow_then_fast",
    "Model.C75_any_length"
   ],
   "note": "Possible results of both policies are exactly the same set, and so are the ends of whole games. C75_policies and C75_same_games speak of accepted points, with at most 65,535 calls; C75_round, C75_slow_then_fast and C75_any_length of points that pass check_point, without a bound. With super-ko the slow loop can meet a panic of legals that the fast one avoids."
  },
  {
   "property": "C76",
   "status": "proved",
   "theorems": [
    "Model.C76_push_occupied",
    "Model.C76_push_occupied_debug",
    "Model.C76_play_occupied",
    "Model.C76_play_occupied_suicide",
    "Model.C76_play_occupied_debug"
   ],
   "note": "C76_play_occupied_suicide is the exception named in the statement."
  },
  {
   "property": "C77",
   "status": "proved",
   "theorems": [
    "Model.C77_off_table",
    "Model.C77_alias",
    "Model.C77_hidden",
    "Model.C77_hidden_suicide",
    "Model.C77_hidden_debug"
   ],
   "note": "Spec.Hidden: the index lies in the table and is no board point's. Spec.standsAt: the place whose neighbours the board looks at."
  },
  {
   "property": "C78",
   "status": "proved",
   "theorems": [
    "Model.C78_last_resignation",
    "Model.C78_no_resignation",
    "Model.C78_accepted"
   ],
   "note": "resignations: the players of the accepted resignations in order."
  },
  {
   "property": "C79",
   "status": "proved",
   "theorems": [
    "Model.C79_new"
   ],
   "note": ""
  },
  {
   "property": "C80",
   "status": "proved",
   "theorems": [
    "Model.C80_check_super_ko"
   ],
   "note": ""
  },
  {
   "property": "C81",
   "status": "proved",
   "theorems": [
    "Model.C81_preview",
    "Model.C81_preview_eq"
   ],
   "note": "C81_preview: what the preview shows; C81_preview_eq: when it equals the played board."
  },
  {
   "property": "C82",
   "status": "proved",
   "theorems": [
    "Model.Sgf.C82_from_sgf"
   ],
   "note": "The text parser is an external crate; the theorem starts from its nodes. What buildInner does with the description is C29 and C43."
  },
  {
   "property": "C83",
   "status": "proved",
   "theorems": [
    "Model.C83_coords_by_color",
    "Model.C83_empty_coords",
    "Model.C83_to_vec",
    "Model.C83_empty_idx",
    "Model.C83_matrix"
   ],
   "note": "Spec.cell: the colour of the point with a given index. On boards that are not square the coordinates listed are those of other points."
  },
  {
   "property": "C84",
   "status": "proved",
   "theorems": [
    "Model.C84_evaluate_leaf"
   ],
   "note": ""
  },
  {
   "property": "C85",
   "status": "proved",
   "theorems": [
    "Model.C85_floating_stones",
    "Model.C85_dead_stones"
   ],
   "note": "eyesOf counts the eyes of either colour next to the group. The search itself is C67."
  },
  {
   "property": "C86",
   "status": "proved",
   "theorems": [
    "Model.C86_score",
    "Model.C86_score_other",
    "Model.C86_outcome",
    "Model.C86_outcome_nan",
    "Model.C86_outcome_infinite",
    "Model.C86_one_rounding",
    "Model.C86_every_score",
    "Model.C86_every_score_other",
    "Model.C86_every_outcome",
    "Model.C86_small_boards"
   ],
   "note": "Spec.Rounded is IEEE round-to-nearest-even, stated without the model (Spec/Float.lean); C86_one_rounding: it determines the value. The C86_every theorems (Props/KomiAll.lean) need no bound on the prisoners; the others give the simpler form for fewer than 2^20 prisoners, C86_small_boards for boards up to 11 x 11. A komi that is not an f32 value cannot occur in the code and is excluded by Single."
  },
  {
   "property": "C87",
   "status": "proved",
   "theorems": [
    "Model.C87_push",
    "Model.C87_push_reached",
    "Model.C87_start",
    "Model.C87_at_most",
    "Model.C87_play",
    "Model.C87_preview",
    "Model.C87_check_point_by",
    "Model.C87_try_play",
    "Model.C87_legals_by",
    "Model.C87_run",
    "Model.C87_reached"
   ],
   "note": "C87_push_reached and C87_reached show that the limit is reached, on an empty board of one point and in a game on 2 x 2 under the Japanese rule. C87_start: every start, with handicap and set-up stones, has exactly one count."
  },
  {
   "property": "C88",
   "status": "proved",
   "theorems": [
    "Model.C88_release",
    "Model.C88_release_example",
    "Model.C88_from_slice",
    "Model.C88_round_trip",
    "Model.C88_chain_stones_coord",
    "Model.C88_pseudo_legals_vec"
   ],
   "note": "The exact siblings of C18, C23 and C47."
  },
  {
   "property": "C89",
   "status": "proved",
   "theorems": [
    "Model.C89_uncontested",
    "Model.C89_contested",
    "Model.C89_iff",
    "Model.C89_game",
    "Model.C89_try_play",
    "Model.C89_contested_witness",
    "Model.C89_uncontested_witness"
   ],
   "note": "The exact sibling of C52. C89_iff is the claim about check_eye; C89_game and C89_try_play the claim about games. Symmetries are the bijections of the board that preserve neighbours."
  },
  {
   "property": "C90",
   "status": "proved",
   "theorems": [
    "Model.C90_any_check_point",
    "Model.C90_any_play",
    "Model.C90_any_try_play",
    "Model.C90_any_run",
    "Model.C90_any_number_of_stones",
    "Model.C90_any_witness",
    "Model.C90_boards",
    "Model.C90_number_of_stones",
    "Model.C90_check_point",
    "Model.C90_play",
    "Model.C90_try_play",
    "Model.C90_run",
    "Model.C90_checks_bite",
    "Model.C90_witness"
   ],
   "note": "Model/Machine.lean has the same functions with capacity checks and u32 arithmetic; the theorems say that they agree with the functions every other property is about. C90_checks_bite shows that the checks can fail."
  },
  {
   "property": "C91",
   "status": "proved",
   "theorems": [
    "Model.C91_perft",
    "Model.C91_random",
    "Model.C91_legals_moves",
    "Model.C91_floating_stones",
    "Model.C91_empty_coords",
    "Model.C91_legals_by",
    "Model.C91_legals",
    "Model.C91_listed",
    "Model.C91_missed",
    "Model.C91_moves_any_length"
   ],
   "note": "C17, C18, C46 and C85 are the case h = w. C91_missed: on 4 x 2 legals can be empty, and the search be offered the pass alone, with four moves open. C91_moves_any_length has no bound on the stones put."
  },
  {
   "property": "C92",
   "status": "proved",
   "theorems": [
    "Model.C92_two_passes",
    "Model.C92_territories",
    "Model.C92_calculate_territories",
    "Model.C92_score",
    "Model.C92_score_other",
    "Model.C92_outcome",
    "Model.C92_wrong_winner",
    "Model.C92_overcount"
   ],
   "note": "The case h = w is C20 to C22 and C86. C92_wrong_winner: on 6 x 2 a won game is given to the other side. C92_overcount: on 4 x 2 one stone makes 15 points of territory."
  },
  {
   "property": "C93",
   "status": "proved",
   "theorems": [
    "Model.Sgf.C93_import",
    "Model.Sgf.C93_three_passes",
    "Model.Sgf.C93_import_unresumed",
    "Model.Sgf.C93_false_not_square"
   ],
   "note": "Square boards, as stated; what the import does with a record of another shape is C82, the failure is C93_false_not_square."
  },
  {
   "property": "C94",
   "status": "proved",
   "theorems": [
    "Model.C94_exclusive",
    "Model.C94_strategy_stealing",
    "Model.C94_determined",
    "Model.C94_first_player",
    "Model.C94_black_wins",
    "Model.C94_draw",
    "Model.C94_komi_matters",
    "Model.C94_setup_matters"
   ],
   "note": "A call that panics (C87) is not an accepted move. Concrete cases: Black wins on 3 x 1 (C94_black_wins), a draw on 1 x 1 (C94_draw); the hypotheses are needed (C94_komi_matters, C94_setup_matters)."
  },
  {
   "property": "C95",
   "status": "proved",
   "theorems": [
    "Model.C95_contains",
    "Model.C95_operations",
    "Model.C95_records",
    "Model.C95_known",
    "Model.C95_rules",
    "Model.C95_history",
    "Model.C95_try_play",
    "Model.C95_legals",
    "Model.C95_search",
    "Model.C95_run",
    "Model.C95_score",
    "Model.C95_complete_needed"
   ],
   "note": "The sources of bitflags and indexmap are not in the project: `contains` and the like are written from their documentation, and of indexmap only completeness of the lookup is assumed (Lookup.Complete); C95_complete_needed shows that it is needed."
  },
  {
   "property": "C96",
   "status": "proved",
   "theorems": [
    "Model.C96_values",
    "Model.C96_add",
    "Model.C96_zero_sign",
    "Model.C96_score",
    "Model.C96_result",
    "Model.C96_negative_zero",
    "Model.C96_side",
    "Model.C96_slice",
    "Model.C96_outcome",
    "Model.C96_example"
   ],
   "note": "Rust leaves open which NaN an operation returns: a parameter that only has to be a NaN."
  },
  {
   "property": "C97",
   "status": "proved",
   "theorems": [
    "Model.C97_colour",
    "Model.C97_neighbours",
    "Model.C97_overflow",
    "Model.C97_on_board",
    "Model.C97_groups",
    "Model.C97_will_capture",
    "Model.C97_check_suicide",
    "Model.C97_check_eye",
    "Model.C97_far_eye",
    "Model.C97_check_ko",
    "Model.C97_check_point",
    "Model.C97_example",
    "Model.C97_super_ko_alias",
    "Model.C97_super_ko_hidden",
    "Model.C97_super_ko_hidden_debug",
    "Model.C97_check_point_superko",
    "Model.C97_super_ko_alias_example",
    "Model.C97_super_ko_hidden_example"
   ],
   "note": "Proved without assuming that the pair is on the board; C97_on_board shows that for points of the board the definitions used are the ordinary ones. C97_super_ko_hidden rests on the Zobrist keys being non-zero: a stone on a hidden cell changes the hash, so that the made-up board equals none of the history."
  },
  {
   "property": "C98",
   "status": "proved",
   "theorems": [
    "Model.C98_life",
    "Model.C98_handicap",
    "Model.C98_builder",
    "Model.C98_builder_example",
    "Model.C98_cells",
    "Model.C98_groups",
    "Model.C98_hash",
    "Model.C98_push",
    "Model.C98_remove",
    "Model.C98_count",
    "Model.C98_play",
    "Model.C98_beyond",
    "Model.C98_check_point",
    "Model.C98_try_play",
    "Model.C98_empty_side",
    "Model.C98_legals",
    "Model.C98_example"
   ],
   "note": "The weak companion of C01 to C08 for the sizes and coordinates those leave out. What is lost there, and not claimed, is that groups are connected and that the recorded liberties are the empty neighbours (C26_first_stone_iff)."
  },
  {
   "property": "C99",
   "status": "proved",
   "theorems": [
    "Model.C99_final",
    "Model.C99_turn",
    "Model.C99_leaf",
    "Model.C99_descent",
    "Model.C99_winner",
    "Model.C99_zero_sum",
    "Model.C99_example",
    "Model.C99_beyond",
    "Model.C99_any_length",
    "Model.C99_offered_and_panics"
   ],
   "note": "The search itself (oxymcts) is not modelled: a descent is any sequence of offered moves. C99_any_length has no bound on the moves; C99_offered_and_panics: after a long game on 8 x 8 an offered move panics."
  },
  {
   "property": "C100",
   "status": "proved",
   "theorems": [
    "Model.C100_empty_coords",
    "Model.C100_territories",
    "Model.C100_returns",
    "Model.C100_score",
    "Model.C100_outcome",
    "Model.C100_outside",
    "Model.C100_exact_score",
    "Model.C100_two_passes"
   ],
   "note": "The companion of C98 for the end of the game; C09, C86 and C92 are the sharper statements for sides that divide. `C100_outside` shows the damage: 17 points of territory, two of them outside the board, on 6 cells."
  },
  {
   "property": "C101",
   "status": "proved",
   "theorems": [
    "Model.C101_chains",
    "Model.C101_number",
    "Model.C101_record",
    "Model.C101_example"
   ],
   "note": "C101_chains, C101_number, C101_record; a board with a dead group: C101_example."
  },
  {
   "property": "C102",
   "status": "proved",
   "theorems": [
    "Model.C102_refines",
    "Model.C102_total",
    "Model.C102_checks",
    "Model.C102_position",
    "Model.C102_no_new_dead",
    "Model.C102_same_as_book",
    "Model.C102_book_move_false",
    "Model.C102_book_suicide_false",
    "Model.C102_book_ko_false",
    "Model.C102_witness"
   ],
   "note": "C102_refines, C102_total, C102_checks, C102_position, C102_no_new_dead, C102_same_as_book; the book differs: C102_book_move_false, C102_book_suicide_false, C102_book_ko_false; C102_witness is a start with a dead group."
  },
  {
   "property": "C103",
   "status": "proved",
   "theorems": [
    "Model.C103_boards",
    "Model.C103_games",
    "Model.C103_early",
    "Model.C103_has_liberties",
    "Model.C103_any",
    "Model.C103_first_legal",
    "Model.C103_witness",
    "Model.C103_witness_legal"
   ],
   "note": "Model/Listing.lean has the iterators themselves: source items fixed when made, closures run when an item is drawn. C103_witness is a board where collecting panics and two calls of next succeed."
  },
  {
   "property": "C104",
   "status": "proved",
   "theorems": [
    "Model.C104_is_over",
    "Model.C104_while_legal",
    "Model.C104_blocked",
    "Model.C104_not_over",
    "Model.C104_not_over_both",
    "Model.C104_witness"
   ],
   "note": "Differs from the documentation of is_over; C104_while_legal: the documented meaning holds while a legal move is left. Witnesses on 2 x 2 and 1 x 1 boards."
  },
  {
   "property": "C105",
   "status": "proved",
   "theorems": [
    "Model.C105_orientation",
    "Model.C105_witness"
   ],
   "note": "Differs from the documentation of pretty_string."
  },
  {
   "property": "C106",
   "status": "proved",
   "theorems": [
    "Model.C106_white_begins",
    "Model.C106_put_handicap",
    "Model.C106_not_white"
   ],
   "note": "Differs from the documentation of GameBuilder::put_handicap; no condition on size and points other than that build returns."
  },
  {
   "property": "C107",
   "status": "proved",
   "theorems": [
    "Model.C107_differs",
    "Model.C107_sizes",
    "Model.C107_readme",
    "Model.C107_differs_ko",
    "Model.C107_suicide_ko",
    "Model.C107_every_rule"
   ],
   "note": "The converse of C49. The sizes on which it fails are found by evaluating the model on all 19 x 19 sizes (the whole domain), the abstract side is proved for all sizes. C107_every_rule is the complete statement; C107_sizes and C107_suicide_ko are its two halves; C107_differs and C107_differs_ko give the sequences of at most four calls."
  },
  {
   "property": "C108",
   "status": "proved",
   "theorems": [
    "Model.C108_check_point_by",
    "Model.C108_check_point",
    "Model.C108_legals",
    "Model.C108_play",
    "Model.C108_try_play",
    "Model.C108_run",
    "Model.C108_try_play_weaker",
    "Model.C108_run_weaker",
    "Model.C108_example"
   ],
   "note": "No hypotheses on the games at all."
  },
  {
   "property": "C109",
   "status": "proved",
   "theorems": [
    "Model.C109_check_point",
    "Model.C109_legals",
    "Model.C109_play",
    "Model.C109_try_play",
    "Model.C109_run",
    "Model.C109_new",
    "Model.C109_put_handicap",
    "Model.C109_score",
    "Model.C109_outcome",
    "Model.C109_go",
    "Model.C109_rules",
    "Model.C109_example"
   ],
   "note": "C90, C95 and C96 at once, for boards of any size and any coordinates; C109_go joins it to C107. What is assumed of the hash table is Lookup.Complete (C95_complete_needed shows that it is needed)."
  },
  {
   "property": "C110",
   "status": "proved",
   "theorems": [
    "Model.C110_hang",
    "Model.C110_first",
    "Model.C110_own",
    "Model.C110_play",
    "Model.C110_play_hangs"
   ],
   "note": "Together with C76, what a stone on an occupied point does to the board. C110_play_hangs is a pair of concrete games and shows that play can loop; the other theorems are general."
  },
  {
   "property": "C111",
   "status": "proved",
   "theorems": [
    "Model.C111_tells",
    "Model.C111_collision",
    "Model.C111_sizes",
    "Model.C111_two_points"
   ],
   "note": "Completes C06 and C48. Users of the hash as a key (transposition tables) can rely on it up to 32 points only; the history of the crate compares boards with == and is not affected (C95)."
  },
  {
   "property": "C112",
   "status": "proved",
   "theorems": [
    "Model.C112_area",
    "Model.C112_territory",
    "Model.C112_suicide"
   ],
   "note": "An accepted try_play is the same play (C13). On boards with more rows than columns territory is listed differently (C92) and nothing of this is claimed."
  },
  {
   "property": "C113",
   "status": "proved",
   "theorems": [
    "Model.C113_fast",
    "Model.C113_slow",
    "Model.C113_chance",
    "Model.C113_playout",
    "Model.C113_play_game",
    "Model.C113_within",
    "Model.C113_fair"
   ],
   "note": "That the shuffle of the rand crate makes all orders equally likely is the hypothesis, built into meanOfOrders (the mean over List.permutations). C113_within ties the means to the runs of playout with given shuffles. C75 is the statement about which results are possible."
  },
  {
   "property": "C114",
   "status": "proved",
   "theorems": [
    "Model.C114_one",
    "Model.C114_refused",
    "Model.C114_one_turn",
    "Model.C114_origin",
    "Model.C114_after",
    "Model.C114_recapture"
   ],
   "note": "C14 says when check_ko is true; C114 says what that means over a game. With super-ko try_play answers Ko for repetitions as well, hence the hypothesis of C114_refused. On a suicidal play (rules that allow suicide) check_ko may be true although nothing would be repeated (C15, C53), hence the hypothesis of C114_recapture."
  },
  {
   "property": "C115",
   "status": "proved",
   "theorems": [
    "Model.C115_stands",
    "Model.C115_number",
    "Model.C115_taken",
    "Model.C115_atari"
   ],
   "note": "C09 says what one stone does; C115 follows a group over a game. Overwriting plays (play on an occupied point, C28) and play on a finished board are outside: the continuation plays on empty points. A continuation by accepted try_play is a special case (Later.tryPlay)."
  },
  {
   "property": "C116",
   "status": "proved",
   "theorems": [
    "Model.C116_in_step",
    "Model.C116_all_legals",
    "Model.C116_past",
    "Model.C116_legals",
    "Model.C116_transposition",
    "Model.C116_super_ko"
   ],
   "note": "C62 is the same with equal histories, and covers super-ko. C116_in_step: games that show the same and used as many group records return or panic together. C116_all_legals: legal moves without super-ko never panic, in games of any length. C116_transposition needs at least one stone: with none put, an accepted pass clears the ko point while doing nothing does not."
  },
  {
   "property": "C117",
   "status": "proved",
   "theorems": [
    "Model.C117_score",
    "Model.C117_winner",
    "Model.C117_fair",
    "Model.C117_half"
   ],
   "note": "Komi is an f32: the order is that of values with the infinities at the ends (NaN and a score of infinity minus infinity are C26)."
  },
  {
   "property": "C118",
   "status": "proved",
   "theorems": [
    "Model.C118_komi",
    "Model.C118_fair",
    "Model.C118_unique",
    "Model.C118_first_player",
    "Model.C118_row"
   ],
   "note": "Nobody resigns (C94). With prisoners counted the score of long games is rounded, so the exact fair komi is claimed for area counting only. Concrete case: on 3 x 1 under the Chinese rule the fair komi is 2 (C118_row; 2 and not 3 because of C92)."
  },
  {
   "property": "C119",
   "status": "proved",
   "theorems": [
    "Model.C119_score",
    "Model.C119_majority",
    "Model.C119_two_eyes",
    "Model.C119_six_of_nine"
   ],
   "note": "The opponent may play into the regions and may even be to move. Concrete case: six points of nine on 3 x 3 (C119_six_of_nine)."
  },
  {
   "property": "C120",
   "status": "proved",
   "theorems": [
    "Model.C120_other",
    "Model.C120_far",
    "Model.C120_own"
   ],
   "note": "C08, C09 and C03 say what the stones and liberties are in each position; this states the change from one position to the next. Which groups are taken is C09 and C115_atari."
  },
  {
   "property": "C121",
   "status": "proved",
   "theorems": [
    "Model.C121_taken",
    "Model.C121_score",
    "Model.C121_result",
    "Model.C121_three",
    "Model.C121_example"
   ],
   "note": "C41 is the two-stone case. Without super-ko, or with it as coded (C15), positions do come back: C121_example has three stones on 3 x 3 under the Japanese rule."
  },
  {
   "property": "C122",
   "status": "proved",
   "theorems": [
    "Model.C122_liberties",
    "Model.C122_total",
    "Model.C122_room",
    "Model.C122_taken",
    "Model.C122_example"
   ],
   "note": "C122_example: a row of three stones with eight liberties and one stone with four. Boards set up with groups without liberties are outside C122_room and C122_taken: they can be full."
  },
  {
   "property": "C123",
   "status": "proved",
   "theorems": [
    "Model.C123_taken",
    "Model.C123_remain",
    "Model.C123_exact",
    "Model.C123_example"
   ],
   "note": "The converse of C68 for rules that forbid suicide. C123_example: under CHINESE and JAPANESE rules a group with one eye and white stones elsewhere, taken in five rounds; the two-eyed group of C68 is an example of living stones. Rules that allow suicide are the subject of C124: the criterion there asks more of a region. Under super-ko the capturing stone could be refused if it restores an earlier position; hence the condition."
  },
  {
   "property": "C124",
   "status": "proved",
   "theorems": [
    "Model.C124_taken",
    "Model.C124_remain",
    "Model.C124_exact",
    "Model.C124_example"
   ],
   "note": "The converse of C68 for rules that allow suicide, and the counterpart of C123. C124_example: a group with one eye and a corner of four points with an opposing stone in it; it lives where suicide is forbidden, and where it is allowed it is taken in ten rounds, the third of which is a suicide. Super-ko is excluded: clearing a region restores earlier positions. The bound on the number of stones is far from sharp."
  },
  {
   "property": "C125",
   "status": "proved",
   "theorems": [
    "Model.C125_take",
    "Model.C125_exact",
    "Model.C125_threat"
   ],
   "note": "C115_atari is the other half (only groups in atari are taken, on their last liberty). Examples: two stones taken on their last liberty, and a ko where the stone in atari cannot be taken back at once."
  },
  {
   "property": "C126",
   "status": "proved",
   "theorems": [
    "Model.C126_connect"
   ],
   "note": "The third liberty is needed: without it the connecting stone can be suicide. Example: a bamboo joint on 5 × 5."
  },
  {
   "property": "C127",
   "status": "proved",
   "theorems": [
    "Model.C127_four_stones",
    "Model.C127_count",
    "Model.C127_perft",
    "Model.C127_benchmark"
   ],
   "note": "C127_count gives the number of accepted sequences on every supported board, C127_perft the value of the function. C73 has the first three plies; on 2 x 2 the formulas are false (example there)."
  },
  {
   "property": "C128",
   "status": "proved",
   "theorems": [
    "Model.C128_self_atari",
    "Model.C128_seki"
   ],
   "note": "The Japanese, simple-ko rules have no super-ko, so there the opponent's stone is always accepted."
  },
  {
   "property": "C129",
   "status": "proved",
   "theorems": [
    "Model.C129_settled",
    "Model.C129_stop",
    "Model.C129_sensible",
    "Model.C129_simulation",
    "Model.C129_playout",
    "Model.C129_score"
   ],
   "note": "C129_stop is the position; C129_sensible the end of a game of such moves; C129_playout and C129_simulation say that play-outs and simulations are such games. C129_settled: below the limit of the group table, nothing to play but own eyes means no accepted play that fills no own eye."
  },
  {
   "property": "C130",
   "status": "proved",
   "theorems": [
    "Model.C130_same",
    "Model.C130_cycle",
    "Model.C130_ends"
   ],
   "note": "C130_same is stronger than the first claim of C116 in that prisoners and results may differ. The example beside the theorems is a cycle of four moves on a 3 x 1 board. C72_small applies C130_ends to a cycle on each narrow board."
  },
  {
   "property": "C131",
   "status": "proved",
   "theorems": [
    "Model.C131_index_loop",
    "Model.C131_index_loop_board",
    "Model.C131_index_loop_left",
    "Model.C131_push_after",
    "Model.C131_try_play_again",
    "Model.C131_push_reached",
    "Model.C131_game_reached",
    "Model.C131_preview_reached",
    "Model.C131_same_calls",
    "Model.C131_push",
    "Model.C131_play",
    "Model.C131_pass",
    "Model.C131_try_play",
    "Model.C131_same_setup",
    "Model.C131_push_many",
    "Model.C131_put_handicap",
    "Model.C131_handicap_reached"
   ],
   "note": "A limitation of the code, stated as theorems. C131_same_calls ties the model that keeps the value after a panic (Model/Unwind) to the model of the calls: same answers, same boards and games. C131_push_reached, C131_game_reached and C131_preview_reached are boards and games that meet the hypotheses; in the first White's stone shows as Black's. (5) and (6) are about points with nothing beside them; a stone beside others after a panic is not treated. C131_same_setup, C131_push_many and C131_put_handicap are (7), with C131_handicap_reached as a case on 9 × 9. C131_index_loop, C131_index_loop_board and C131_index_loop_left justify the one loop that Model/Unwind does not write step by step."
  },
  {
   "property": "C132",
   "status": "proved",
   "theorems": [
    "Model.C132_unchanged",
    "Model.C132_cut",
    "Model.C132_play",
    "Model.C132_try_play",
    "Model.C132_reached",
    "Model.C132_game_reached"
   ],
   "note": "A limitation of the code, stated as theorems. C132_cut is (3), and C132_reached a case on 19 × 19. The model of the calls is the one tied to the rest by C131_same_calls. C132_game_reached is a 19 × 19 game in which the damage shows: a legal capture panics later on."
  },
  {
   "property": "C133",
   "status": "proved",
   "theorems": [
    "Model.C133_unchanged",
    "Model.C133_left",
    "Model.C133_play",
    "Model.C133_reached",
    "Model.C133_after",
    "Model.C133_game_after",
    "Model.C133_after_reached"
   ],
   "note": "A limitation of the code, stated as theorems. C133_left is (2) and (3), and C133_reached a game on 9 × 9 for (2). The model of the calls is the one tied to the rest by C131_same_calls. C133_after is (5) and C133_game_after is (6); C133_after_reached continues the game: the play of an empty point panics, a pass is accepted."
  },
  {
   "property": "C134",
   "status": "proved",
   "theorems": [
    "Model.C134_same_call",
    "Model.C134_unchanged",
    "Model.C134_cut",
    "Model.C134_unchanged_reached",
    "Model.C134_game_reached"
   ],
   "note": "A limitation of the code, stated as theorems. C134_cut is (2), whose hypotheses hold of the board of C132_reached; C134_game_reached is (3). C134_same_call ties the model that keeps the board on a panic to the rest."
  }
 ]
}