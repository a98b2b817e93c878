# Design: a Lean 4 model of Sagebati/goban (v0.20.1)

## 1. What is modelled and how

The crate is a pure, single-threaded state machine, so the model is a set of total functions that follow the Rust
function by function. `/repo` is never run; the tie between model and code is the file/line citation on each definition.

* **Faults.** Every Rust function that can panic or loop returns `M α = Except Fault α` with `Fault = panic | diverge`.
  Index out of bounds, `unwrap` on `None`, `assert!`, division by zero and `NonMaxU16::new(65535).unwrap()` are
  `panic`; a circular stone list that never comes back to its origin is `diverge`.
* **Build profile.** A Boolean `dbg` is threaded through the model. `dbg = true` adds `debug_assert!`s, arithmetic
  overflow panics and `check_integrity_all`; `dbg = false` wraps. Theorems quantify over `dbg`.
* **Integers.** `u8`, `u16`, `usize` are `Nat`; casts `as u8` / `as u16` are explicit `% 256` / `% 65536`; `u64` hashes
  are `BitVec 64`; liberty buckets are `BitVec 8`. `u32` counters are `Nat`; C90 proves that 32-bit
  counters give the same results.
* **Containers.** `Vec`, `ArrayVec`, slices are `List`; C90 proves that versions with the capacity
  checks of `ArrayVec` give the same results. Iterators that the code stops early, or whose loop body can fail, are followed
  item by item (`firstLiberty`, `anyConnected`, `iterFold`). `IndexSet<Goban>` is a list in insertion order, with membership by `==`,
  and the rule flags are Booleans; C95 proves that a hash lookup and 32-bit flag words give the same results. `HashSet`
  iteration order is a parameter where it could matter.
* **f32** is a small exact model of IEEE binary32 (`Verif/Model/F32.lean`): NaN, infinities and rationals, every operation
  rounds to nearest even (proved against a separate statement of IEEE rounding, `round_spec` and `round_overflow` in
  `Proofs/Float.lean`). Signed zeros and NaN payloads are not distinguished; C96 proves that the 32-bit words, with both zeros and
  every NaN, give the same scores, outcomes and board sides.
* **All of this at once.** `Model/Whole.lean` is `Game` with every field as in the code (`u32` words, fixed capacities, flag words,
  lookup by hash, `f32` words). C109 proves that its calls commute with the map to the main model.
* **Sizes.** The model keeps both dimensions and the code's own index formulas. `Dim` is a height and a width; positive theorems
  are for every size up to 19 by 19 whose width divides its height (`Dim.Fits`: all square boards, 6 by 3, 4 by 2, 18 by 1, ...).
  On every other size the code records the liberties of some first stone wrongly (`C26_first_stone_iff`); what still holds there, and with coordinates off the board, is C98. The functions that go
  through `get_empty_coords` (legal moves, territories, scores, play-outs) are right on square boards only (`C18_empty_coords_iff`);
  what they do on the other sizes is stated exactly in C91 and C92. A theorem with `{n : Nat}` is about the square board of side `n`.

Files: `lean/Verif/Model/*` (model), `lean/Verif/Spec/*` (independent rules of Go), `lean/Verif/Proofs/*` (lemmas),
`lean/Verif/Props/*` (property theorems, one or more per `Cxx`, with non-vacuity examples).

## 2. Specification

`Spec/Go.lean` knows nothing about chains, indices or bitsets. A position is a function `Nat × Nat → Option Color`,
adjacency is |Δrow| + |Δcol| = 1, a group is the reflexive-transitive closure of "adjacent, same colour", a group has a
liberty if some member is adjacent to an empty on-board point. `Spec.play` places, removes opposing groups without
liberties, then optionally own. Territory, ko and suicide are stated on positions only.

## 3. Proof architecture

1. `Bitset`: refinement of the 46-byte array to a set of indices.
2. `Coord`: on boards whose width divides their height `two_to_1dim`/`one_to_2dim` are inverse, neighbour lists are exact.
3. `Rep`: an abstraction relation from the concrete board to a finite map `chain id ↦ (colour, stone list, liberties)`;
   each primitive (`create_chain`, `add_stone_to_chain`, `merge_strings`, `remove_chain`, liberty updates) is shown to
   refine an operation on that map and not to fault.
4. `Inv`: `Rep` + chains are connected + adjacent same-colour stones share a chain + liberties are exact + hash is exact.
   `push_wth_feedback` and `remove_chain` preserve `Inv` and have the specified effect on the position.
5. `Game`: `play`, `try_play`, checks; refinement to `Spec`; invariants over operation lists by induction.
6. Territory: BFS invariant; counting.

## 4. Plan per property

See the table in section 8 (kept current). Properties that turn out to be false of the code are kept in
`properties.jsonl` as users would rely on them; the negation is proved on a concrete witness and the true part is a
`_partial` theorem.

## 5. Disagreements between code and documentation already visible by reading

* Non-square boards: `two_to_1dim` uses `size.0` (height) as row stride while the width is `size.1`; `one_to_2dim`
  divides by one and takes the remainder by the other (`src/pieces/util.rs:17-27`). The two are inverse iff the width divides the
  height. `get_empty_coords` looks at the first height times width cells, although rows are height cells apart; that is right only on
  square boards.
* Group table slots are never reused (`src/pieces/group.rs:216-219`), so group index 65535 is eventually reached and
  `NonMaxU16::new(..).unwrap()` panics (`src/pieces/goban.rs:482`).
* `get_empty_idx` yields the occupied indices (`goban.rs:368-373`); `get_coords_by_color(EMPTY)` yields all points and its
  loop bound is a `u8` product (`goban.rs:391-403`); `pseudo_legals_vec` computes a `u8` product too (`game.rs:141`).
* `matrix()`/`to_vec()` cover the 361-cell storage, not the board (`goban.rs:97-119`).
* Super-ko is only tested for capturing moves and when three positions are recorded (`game.rs:413-423`).
* `play`/`try_play` do not check that the coordinate is on the board (`game.rs:173-198`, doc says it panics).
* `try_play` does not look at `outcome`, so play goes on after a resignation (`game.rs:221-238`).
* `chain_stones(coord)` uses the board index as a group index (`goban.rs:86-94`).
* `get_floating_stones` is inverted, needs three eyes, and renumbers groups (`dead_stones.rs:134-165`).
* `from_sgf` looks only at the first token of each node and ignores the colour of moves (`sgf_bridge.rs:78-83`). It takes the
  columns and rows of `SZ[columns:rows]` as height and width (`sgf_bridge.rs:30-32`, C93).
* `is_over` ignores the legal moves its documentation names (`game.rs:101-109`, C104). `pretty_string` draws `(0, 0)` top left, not
  bottom left (`goban.rs:418`, C105). `GameBuilder::put_handicap` does not override the turn (`game_builder.rs:52`, C106).

## 6. Trusted base

* **Lean's kernel** (4.33.0), which rechecks every proof term. Concrete witnesses are evaluated in the kernel (`decide +kernel`);
  there is no `native_decide`, no `bv_decide`, no `sorry` and no axiom of our own.
* **Axioms.** The theorems named in MANIFEST.json depend on `propext` and `Quot.sound`, and most of them also on `Classical.choice`,
  and on nothing else (checked with `#print axioms` on each of them).
* **The reading of the Rust source.** Nothing connects the model to the code but the line citations on the definitions. In
  particular the semantics of the Rust constructs used (checked and wrapping arithmetic, slices, iterators, `as` casts) are as
  described in section 1. As evidence that the reading is right, `Verif/Tests/Conformance.lean` runs every deterministic test of the
  repository (tests/general_tests.rs, including the three SGF games and the 318-move game, and the unit test in src/pieces/group.rs) on
  the model, in both build profiles, with the values the repository expects (`#guard`, evaluated at build time; no theorem uses it).
  `conformance/` has a second reading of the sources, a port to Python, and compares its complete state with the model's after every
  call of random sessions, and what a panicking call has left (see its README); hundreds of thousands of calls agree.
* **The specification** in `Verif/Spec/`: `Go.lean` (positions, captures, suicide, territory), `Game.lean` (abstract game, ko,
  super-ko, eyes), `Symmetry.lean` (rotations and reflections), `Observe.lean` (which boards and games can be reached; what a
  caller sees), `Life.lean` (Benson's criterion), `Strategy.lean` (what a player can force), `Float.lean` (IEEE rounding), `Area.lean`,
  `Chance.lean` (means over equally likely orders), and smaller ones; and the small definitions placed next to the theorems that use them in `Verif/Props/` (for instance `Says`,
  `Said`, `Swapped`, `Turned`, `Blank`).

### Modelled

Every function of `src/pieces/{goban,group,territory,stones,util,zobrist}.rs` and `src/rules/{mod,game,game_builder,sgf_bridge,
dead_stones}.rs` except those listed next, `perft`, `fast_play_random`, `play_random`, `fast_play_game` and `play_game` of `benches/perft.rs`, and the example program
of `README.md`. The Zobrist table is copied number by number.

### Not modelled, or modelled by a parameter

* The text parser `sgf_parser`: `from_sgf` starts from the tokens of the main line. `unreachable!` for `PL` values and the panic
  for unknown rule sets are modelled.
* The Monte-Carlo search of `oxymcts` (`dead_stones_wth_simulations`, lines 171-177): which of the moves listed by `legals_moves` it
  chooses is a parameter; theorems assume only that it returns and that its choice is one of the list if the list is not empty. (It
  panics if one of its play-outs does, see C57, or ends in a draw, see C51.) The loop around the search, the play-out policy, the
  move generator, the evaluation and the final look-ups are modelled.
* Randomness: a shuffle is any permutation. Hash set iteration: any permutation (`ord`).
* `Hash` of a board is the value fed to the hasher, not the hasher's digest.
* The criterion harness of the benchmarks; the bodies of `criterion_benchmark` are constant calls of the functions above.
* Printing (`display_goban`, derived `Debug`), trivial field getters, player names.
* `Eval::eval_child` (`dead_stones.rs:67-79`), a floating-point formula of `oxymcts` that only the search calls.
* The feature `history` only exposes the field that C42 speaks about.
* Allocation, time, stack depth. The `u32` prisoner counters are `Nat`; `C57_prisoners` proves that they stay below 2^32, so that
  they cannot overflow (C90 and C109 have them as words). The `u32` handicap is `Nat`; it is a length or a number given by the
  caller (`C109_put_handicap` has it as a word).
* f32: which NaN an operation returns is a parameter (C96).
* Unwinding: what a panicking `push`, `push_many`, `remove_chain`, `play`, `try_play` or `put_handicap` has already written is modelled in
  `Model/Unwind.lean` and `Model/UnwindHandicap.lean` (C131, C132, C133, C134). For the other calls on `&mut self` a panic is only the end of the
  call. The panic message is not modelled.

## 7. Statements amended after they were first written

Most false properties are kept as first stated, with the negation proved. These were reworded instead; the old reading is false
(or ambiguous) and the reason is:

* C01: the limit of 65,535 stones in the life of a board was added (its failure is C27).
* C09: "every group has a liberty beforehand" was added; groups set up without liberties elsewhere on the board stay.
  `C09_play_local` covers every reachable board.
* C13: restricted to games reached with try_play (after raw `play` calls the recorded ko point need not mean anything).
* C22: komi restricted to multiples of 1/2 below 2^20; `C22_every_komi_false` shows that the restriction is needed.
* C29: sizes whose width divides their height and distinct on-board points; the panic on three passes was added (`C29_three_passes`).
* C29 was later widened from the fields of a builder to sequences of setter calls (`C29_setters`).
* C44: the sentence on scores was added later.
* C43: non-empty lists; `C43_empty_differs` shows why.
* C49: title only.
* C02 to C09, C19, C29, C37, C49, C58: first stated for square boards; now for every size whose width divides its height, with
  C58's last clause widened from 2 by 2 to every board of at most nine points, and its bound lowered from 3^a*(a+1)+a+3.
* C37: the glyph of every empty point was spelled out after a wrong program passed. The limit on prisoners in `Exact` (scores)
  applies only to rules that count prisoners.

## 8. Properties, one by one

Theorems are listed in MANIFEST.json. "Reachable" boards and games are `Board`, `Reach`, `Legal` of `Spec/Observe.lean`. Sizes are as in
section 1.

| Id | Status | What is proved, and how |
|---|---|---|
| C01 Goban::push sets exactly one intersection | proved | Both build profiles. The bound of 65,534 earlier pushes is the limit of the 16-bit group index (C27). From the invariant `Inv` and the effect of `push_wth_feedback` on the position (Proofs/Inv, View). |
| C02 Recorded groups are exactly the connected components | proved | Group index equality iff Linked (path of same-coloured adjacent stones). Invariant: recorded groups are connected and adjacent stones of a colour share a group. |
| C03 Recorded liberties are exactly the empty neighbours of the group | proved | All liberty queries of a live group against the empty neighbours of its stones. Invariant: liberty bitsets are exact; Proofs/Bitset relates bytes to sets. |
| C04 Iterating a group's stones terminates and lists each stone once | proved | The circular iterator ends, lists each stone once, starts at origin (smallest) and ends at last. Invariant: the circular list of a group is a list without repetition (Proofs/Rep). |
| C05 number_of_stones counts the board | proved | Against the count of coloured points of get_color. Counting over the partition of the stones into groups (Proofs/Stones). |
| C06 zobrist_hash is a function of the position only | proved | Hash is the XOR of the keys of the stones, hence a function of the position. Invariant on the hash; XOR is insensitive to order. |
| C07 Goban equality is equality of positions and agrees with Hash | proved | == iff same size and same colours; equivalence relation; equal boards hash alike. `==` compares size, hash and get_color of all points; equal positions have equal hashes by the invariant behind C06. |
| C08 remove_chain removes exactly one group | proved | Effect on colours, on the other groups and on their liberties. Loop invariant of remove_chain (Proofs/Remove). |
| C09 play implements the capture rule of Go | proved | C09_play: rule-book move when no group is dead before; C09_play_local: every reachable game (also with dead groups set up elsewhere, which the code leaves alone). Proofs/Capture: the work list of captured groups against removeDead. |
| C10 try_play never leaves a group without liberties | proved | Invariant over all try_play/resume/set_komi sequences. Induction over calls (`Legal.sim`). |
| C11 Prisoner accounting | proved | Per move and as a conservation law over whole games. Counting removed stones; induction over plays. |
| C12 check_suicide is exact | proved | Against Spec.Suicide. Case analysis of check_suicide against the position after removal (Proofs/Rules). |
| C13 try_play decides legality, and rejects without side effects | proved | Decision order, no side effects when refused, accepted move is play. Unfolding, with the lemmas on each check (those behind C12, C14, C15, C31) under the simulation. |
| C14 check_ko is exactly the immediate recapture rule | proved | C14_check_ko: after a play, ko iff the previous position would be restored (plays that are not suicide); C14_exact: the answer in every state and for every point, spelled out on positions; C14_no_ko_after_pass. Simulation invariant ties ko_point to the previous position. |
| C15 Super-ko: no earlier position is ever recreated | partial | False: super-ko is only looked for when the move captures and at least three positions are recorded. C15_false and C15_false_capture are two ways to recreate an earlier position. The partial theorem says which repetitions are excluded; C80 is what the check computes. Simulation invariant ties the history to the positions played from. |
| C16 Turn order and passes | proved | Each clause separately; C16_paused for any number of refused calls. Direct, and induction over calls. |
| C17 legals() is exactly the set of moves try_play accepts | proved | On every reachable game, set-up positions included: exact list, order, no repetition; monotone in the flags. C17_any_length has no bound on the number of stones; C17_listed_and_panics shows that its exception occurs. No check panics on a reachable board (Reach.checkPointBy_total); filter of the row-major list. |
| C18 pseudo_legals lists every empty point once | partial | False for pseudo_legals_vec in debug builds from size 16 on (u8 product overflows): C18_false. Everything else proved: get_empty_coords and pseudo_legals on square boards, and they are right on no other size (C18_empty_coords_iff); pseudo_legals_vec in release builds on every size whose width divides its height. C88 is the exact result. Row-major scan; u8 product. |
| C19 get_group_from_point computes the connected component and terminates | proved | Termination and exactness of the region search, also when asked with another colour than the one shown, and of get_chains_from_stones. Work-list invariant with a decreasing measure; the model's fuel is proved sufficient. |
| C20 Territories are exactly the one-colour-bordered empty regions | proved | For every iteration order of the hash set. Regions by C19, order independence by set equality. |
| C21 calculate_score follows the score flags | proved | Exact f32 arithmetic for half-integer komi. Exactness of binary32 on small half-integers (Proofs/F32). |
| C22 outcome names the right winner | proved | C86 has every komi. C22_every_komi_false: a komi of 2^-24 gives a draw with different scores. The exact scores (lemma behind C21), then exactness of comparison and subtraction of binary32 on half-integers. |
| C23 to_vec / From round-trip | partial | False on every size but 19 (to_vec always has 361 cells): C23_false. Proved for 19, and on every size for the first n*n cells. C88 is the exact result. Replaying the cells with pushes. |
| C24 Setup is order independent | proved | Equal boards, hashes, groups and liberties for every permutation. Pushes commute on positions; hash, equality and groups are functions of the position (lemmas behind C02, C06, C07). |
| C25 The liberty bitset is a set of indices | proved | Every 46-byte array, every index. Per-byte bit lemmas. |
| C26 Coordinate conversions are inverse bijections for every supported size | partial | False for non-square boards (height is used as row stride): C26_false. Exact condition proved for every size: the conversions are inverse iff the width divides the height, and exactly on these sizes does the first stone get its liberties right (C26_first_stone_iff). Arithmetic, for all sizes. |
| C27 Legal use never panics | partial | False: group slots are never reused, so some sequence of accepted calls ends in a panic (C27_false; C27_full_table says when). The partial theorems: no panic within 65,535 calls, never anything but a panic (no endless loop), and no panic at all in territories, scores, outcome and equality. C87 says exactly when the panic happens. Positive: totality under the simulation. Negative: a cycle of legal calls that consumes group slots, repeated by induction. |
| C28 play_for_verification predicts play | partial | False when the rule allows suicide (C28_false). Proved for plays that are not suicide. C81 is the exact answer. Comparison of the two capture runs. |
| C29 GameBuilder builds what its setters say | proved | C29_setters starts from the calls of the setters, C29_build from the fields they leave; moves are applied with play; three passes panic. Pushes of distinct stones; folds. |
| C30 SGF import maps tokens to the builder faithfully | partial | False: only the first property of a node is looked at and the recorded colour is ignored (C30_false_order, C30_false_colour). As stated it is proved for records where the move comes first and colours alternate. C82 says what happens to every record. Induction over tokens and nodes. |
| C31 check_eye only accepts surrounded empty points | proved | Soundness, completeness for four safe corners, and the exact two-step shape. Proofs/Eye. |
| C32 Neighbour queries are exact | proved | All neighbour queries. Proofs/Coord, Query. |
| C33 get_coords_by_color / get_stones_by_color list the points of a colour | partial | False for EMPTY (all points are listed) and for sizes from 16 on (u8 product: a debug build panics for every colour, a release build only looks at the first n*n mod 256 points). C83 is the exact result for every colour, size and build. Index arithmetic with the u8 product. |
| C34 get_stones lists every stone once | proved | Row-major list of stones. Row-major scan. |
| C35 get_empty_idx lists empty points | partial | False: get_empty_idx lists the occupied indices (C35_false). C83 is the exact result. Scan. |
| C36 matrix() has the shape and content of the board | partial | False on every size but 19 x 19, rectangular ones included: matrix() has 361/w rows (C36_false). Proved for 19; on every square size the first n rows are right and all later rows are empty. C83 is the exact result. chunks_exact of the storage. |
| C37 pretty_string draws the board | proved | Exact text; equal texts iff equal boards. Row-major scan; injectivity of the glyphs. |
| C38 A finished game stays finished | partial | False: try_play accepts stones and further resignations after a resignation. The partial theorems say what stays; C78 is the exact result of any sequence of calls. Induction over calls; witnesses. |
| C39 will_capture is exact | proved | On every reachable game whose groups all have liberties; against the set of captured stones. Against the effect of play (C09). |
| C40 Off-board coordinates are rejected | partial | False: an off-board coordinate whose index is inside the table is played on another point, or into hidden storage; through such a coordinate try_play accepts a forbidden ko recapture and a forbidden suicide. Proved: coordinates whose index is outside the table panic; play of a coordinate with the index of a board point is play of that point. C77 says exactly what play does in every case. Index outside the table panics; play depends on the coordinate through its index only; witnesses for aliasing, hidden storage, ko and suicide. |
| C41 No two-ply repetition under the ko rule | proved | Two accepted plays under KO and SUICIDE never restore the position. Refinement of try_play to the abstract game, whose ko rule forbids it. |
| C42 history is the ordered set of positions played from | proved | Order of first occurrence, no repetition, never shortened. Simulation invariant. |
| C43 put_handicap equals builder handicap and gives White the move | proved | Non-empty lists; the empty list is treated in C43_empty_differs. Same pushes in the same order. |
| C44 Colour symmetry | proved | Whole games: run of calls on the colour-exchanged start gives the same answers and the exchanged states; scores without komi exchanged. C44_in_step adds the panics of games that are too long for the group table; C44_both_panic shows that they occur. The abstract game commutes with exchange (Proofs/Swap); simulation of C49; lemmas behind C05 and C20 for scores. |
| C45 get_floating_stones returns the groups without two eyes | partial | False: the groups with three or more eyes are returned, and only if their index is below the number of groups (C45_false). C85 is the exact result. Counting eyes next to a group. |
| C46 Play-out moves are legal and never fill an own eye | proved | Every shuffle; whole play-outs (C46_playout). C46_any_length has no bound on the stones put. Induction over the shuffled list; induction over rounds. |
| C47 chain_stones lists the group of the given index | partial | True for indices; false for coordinates (C47_false): the board index is used as group index. C88 is the exact result. Group iterator. |
| C48 Zobrist keys are pairwise distinct and non-zero | proved | Whole table checked by kernel evaluation; a concrete collision of two positions. Kernel evaluation of the whole finite table, lifted by lemmas. |
| C49 Every game is a run of the abstract game of Go | proved | Refinement to Spec.State over whole call sequences: C49_refines for rules that forbid suicide or allow ko (both rules of the crate), C49_refines_every_rule with the ko test of C14_exact for the rest. Forward simulation (Proofs/Refine, Seen). |
| C50 Using play on an occupied point | partial | False of every reachable game without dead groups, at every occupied point, under every rule (C50_always_false). What happens instead is C76. try_play refuses. From C76. |
| C51 Every finished play-out can be evaluated | partial | False: a drawn game panics (C51_false). C84 is the exact answer. Case analysis; C22. |
| C52 Board symmetry | partial | False for rules with FILLEYE: the eye test depends on the order of the corners (C52_false). Proved for every other rule (both rules of the crate) and every symmetry; territories and scores always. C89 is the exact result for rules with FILLEYE. The abstract game commutes with symmetries (Spec/Symmetry, Proofs/Sym); simulation of C49; lemmas behind C05 and C20 for territories and scores. |
| C53 A new game is on the board asked for | partial | False from 256 on: sides are taken modulo 256, so that Custom(265, 265) is a 9 by 9 board (C53_wraps, C53_false). Proved for smaller sides; C79 covers all. Computation of the constructors. |
| C54 The named rule sets | proved | Names, play (refinement to the abstract game with the prohibitions spelled out) and counting. C49 and C21 at the two rule sets. |
| C55 get_winner names the winner | proved | By score and recorded; C55_winner_any for every komi and every size of board, C55_winner_any_exact without rounding (the game of C100_outside is one). C22, case analysis; C100 for every size. |
| C56 Whoever resigns loses | partial | False: the player named in the resignation is recorded as the winner, in every game (C56_resigner_wins, C56_false). The partial theorem has the rest; C78 is the exact result of any sequence of calls. Computation; C22. |
| C57 Play-outs end | partial | False: under the Japanese rule a play-out from the empty 2 by 2 board can run in a cycle until the group table is full and then panics (C57_false). The partial theorem: it makes accepted moves only and always stops, with a game that is over or with a panic for a full group table; C57_small: never a panic under super-ko on at most nine points. A measure of used and used-up group slots and stones that every play increases (Proofs/Slots); for the refutation, a cycle of six moves lifted by the simulation of C49. |
| C58 Super-ko makes games finite | proved | From an empty board, and from any start once three positions have been played from. Forbidden suicide is part of the claim; C58_suicide_needed shows that the bound fails without it. Positions code into numbers below 3^a, and all of them together have a*3^(a-1) empty points; the empty points of the different positions seen, less those of the present one, grow with every accepted stone; simulation of C49. |
| C59 Area and territory counting differ by the stones put | proved | Square boards with the start kept apart; C59_any_size for every size, whatever is listed as territory. C11 (conservation of stones) and C21. |
| C60 Area scores share out the board | proved | Every reachable game. C21 and a partition of the points. |
| C61 A board is determined by its stones | proved | Groups, and rebuilding in any order. Lemmas behind C02, C06 and C24. |
| C62 Games that show the same behave the same | proved | C62_same_future: runs on which both return. C62_in_step: they return or panic together if the two games used as many group records. C62_out_of_step: otherwise they cannot always. C62_count_matters: such games exist. C62_legals_in_step: the same for legals_by. Both games refine the same abstract game from the same state (C41), so a call that returns in both gives equal answers. A call panics only at a stone that needs a new record in a full table (C87), which depends on the position and on the number of records alone; `lockstep` carries equality of that number along. |
| C63 Debug assertions never change a result | proved | Board, game, builder and SGF functions that depend on the profile, one by one. C63_all_boards, C63_all_games and C63_all_runs have no bound on the number of stones. C63_converse_false: outside the preconditions a release build accepts what a debug build refuses. Function by function: the debug form is the release form with assertions that can only panic. For the converse the assertions hold on every reachable state (C10, C28), and the overflow checks can fail only where the release build panics by itself: `push_room` says both need a free record in the same positions. |
| C64 The komi that counts is the one set last | proved | Runs in any state, and the effect on the score; C64_any_size for every komi and size. Induction over calls; C21. |
| C65 Every question returns | proved | With the exceptions stated as equivalences (C65_board_iff, last part of C65_game) or as the 65535 limit (Safe). Totality lemmas for each query from the board invariant (Proofs/Region, Proofs/Total). |
| C66 The stone iterator, call by call | partial | next() is right, also for arbitrary link arrays (returns, panics or never ends exactly as the collected walk). size_hint never counts down: C66_size_hint_false. Iterator modelled as a state machine (Model/Iter); refinement to the collected walk by induction; pigeonhole on the links shows that the walk model's fuel is enough. |
| C67 The simulation behind dead_stones | partial | Ends under every rule (C67_ends_partial), with a finished game or with a panic whose cause is a full group table; a panic is possible (C67_false, Japanese rule on 2 x 2) and impossible under a super-ko rule on at most nine points (C67_small). Each round is a listed move, hence an accepted one (C17), and raises the potential of C57 (position of the group-table ring, stones on the board, passes); C67_false replays the endless play-out of C57 as choices of the search. |
| C68 Two eyes live | proved | Benson's criterion on positions (Spec/Life); where suicide is allowed every point of a region must touch the group, because a suicide can empty points again. Invariant on positions under the rule-book move (Proofs/Life), carried to the code by the refinement (C49, for every rule); simulations by C67_round and check_eye (C31). |
| C69 The positions that can be played | proved | Both directions; the order of the stones is chosen so that each has an empty neighbour when it is played. Induction on the number of stones (Props/Reachable): take away a stone with an empty neighbour, the rest still has no dead group; the answers come from the refinement for every rule (Proofs/Seen). The converse is C10. |
| C70 Groups and their table as data types | proved | The set and the numbering are specified with predicates and functions on numbers, without bits or vectors. Induction on the sequence of calls over the bitset facts of C25 (Props/GroupApi). |
| C71 Indices, defaults and conversions | proved | The same does not hold for chain_stones, which takes a group index (C47_false). Inverse conversions of C26 on boards that fit; the rest by evaluation (Model/Convert, Props/Convert). |
| C72 Legal games that panic, under every rule | proved | A limitation of the code, stated as a theorem. C72_smaller covers every size of C72_crash and more (comb_sizes); C72_nine and C72_chinese give 8 x 8, 9 x 9, 13 x 13 and 19 x 19 under the Chinese rule. C72_small: all sizes from 3 points without super-ko; C72_two_kos is its part from width 4, and C72_japanese gives all squares from 4 x 4. C72_suicide: all sizes from 3 points where suicide is allowed. C72_exact: for these rules, and for all rules on at most nine points, there is such a game if and only if Endless holds. With super-ko and suicide both forbidden nothing is claimed between the nine points of C58 and the sizes of C72_smaller. In all of them the game goes on: nobody has resigned and there are no two passes. C72_crash: seventeen independent kos are set up with C69 and taken in Gray-code order, so that the 131,071 positions are all different. C72_smaller: Black and White capture the whole board from each other in turn, around combs whose teeth count through 16,384 numbers; four group records per round; induction over the rounds with an invariant on the positions played from (CombSeen). C72_two_kos: two kos of the same field are taken in turn, which never repeats the position before last. C72_small, widths 1 to 3: for each of the 32 sizes the kernel evaluates a short cycle under the strictest rule; C108 carries it to the other rules, C63 to the other build profile, and C130_ends repeats it. C72_suicide: Black plays into a corner trap again and again and White passes; the position is the same each time, nothing is captured, so super-ko is not consulted, and the age of the board (C57) rises (crash_of_loop). C72_exact: C58_never_panics where both are forbidden; on one and two points the kernel evaluates all accepted games, which end, under the other rules. |
| C73 perft counts the playable sequences | proved | C73_perft for every depth; C73_first_plies and C73_benchmark give the first values (C127 the fourth). C73_seven and C73_eight say exactly when the u64 overflows first; C73_room is the lower bound used. Induction on the depth; the sequences accepted by try_play are split by their first point, and C17 says that legals() lists exactly the accepted points. For the first plies: with at most one stone of each colour every stone has a liberty and every empty point is accepted. |
| C74 There is room on an open board, and the README program runs | proved | C74_next_to_empty, C74_room, C74_readme. From the decision theorem C13: an empty neighbour rules out suicide, eye and ko, and a play that captures nothing cannot repeat a position. Counting: k stones block at most 5k points. The example program by induction on its rounds. |
| C75 The slow and the fast play-out policy of the benchmarks agree | proved | Possible results of both policies are exactly the same set, and so are the ends of whole games. C75_policies and C75_same_games speak of accepted points, with at most 65,535 calls; C75_round, C75_slow_then_fast and C75_any_length of points that pass check_point, without a bound. With super-ko the slow loop can meet a panic of legals that the fast one avoids. Candidates by C91 and check_eye; whole games by induction on the rounds, with the age of the group table as measure as in C57. |
| C76 A stone put on an occupied point, exactly | proved | C76_play_occupied_suicide is the exception named in the statement. The group under the stone keeps its slot; every step of push commutes with putting one more group on the table (Gr). The removal of a lone stone is followed directly, since the board is not well formed then (Proofs/Lone). |
| C77 A stone played with off-board coordinates, exactly | proved | Spec.Hidden: the index lies in the table and is no board point's. Spec.standsAt: the place whose neighbours the board looks at. push on a cell outside the board: representation kept with one more cell (HidSpec); merging, liberties and removal followed step by step. |
| C78 Resignations, exactly | proved | resignations: the players of the accepted resignations in order. Induction over the calls (run_resignations). |
| C79 New games of every size | proved |  Case analysis on the assertion of Goban::new. |
| C80 check_super_ko, exactly | proved |  From the simulation of the abstract game. |
| C81 The previewed board, exactly | proved | C81_preview: what the preview shows; C81_preview_eq: when it equals the played board. From the exact effect of a play with either suicide flag; the comparison from the simulation of the abstract game. |
| C82 Importing every record | proved | The text parser is an external crate; the theorem starts from its nodes. What buildInner does with the description is C29 and C43. Reading the tokens modulo 256 turns every token that does not panic into a valid one; then as C30. |
| C83 The board listings, exactly | proved | Spec.cell: the colour of the point with a given index. On boards that are not square the coordinates listed are those of other points. Each cell shows the colour of its point; the loops map over the cells. |
| C84 The value of a finished play-out, exactly | proved |  Case analysis on the outcome. |
| C85 Floating and dead stones, exactly | proved | eyesOf counts the eyes of either colour next to the group. The search itself is C67. The eye list is computed exactly; counting. |
| C86 Scores and results for every komi | proved | Spec.Rounded is IEEE round-to-nearest-even, stated without the model (Spec/Float.lean); C86_one_rounding: it determines the value. The C86_every theorems (Props/KomiAll.lean) need no bound on the prisoners; the others give the simpler form for fewer than 2^20 prisoners, C86_small_boards for boards up to 11 x 11. A komi that is not an f32 value cannot occur in the code and is excluded by Single. The model's rounding function is shown to meet the IEEE specification (Proofs/Float): the result is a nearest multiple of the ulp, and values on a finer grid are farther away. Near the draw threshold the difference is exact. |
| C87 Exactly when a stone cannot be recorded | proved | C87_push_reached and C87_reached show that the limit is reached, on an empty board of one point and in a game on 2 x 2 under the Japanese rule. C87_start: every start, with handicap and set-up stones, has exactly one count. The group table grows by one entry iff the stones around the new one are not exactly one group (same_joins); capture and removal never shrink it. Each call is then split into the part that always returns and the one step that needs room (Proofs/Room). |
| C88 Exact results of Goban::from, chain_stones at a coordinate and pseudo_legals_vec | proved | The exact siblings of C18, C23 and C47. Exact evaluation of the fold over the slice; `C88_release` uses C98. |
| C89 Exactly where turning the board changes the eye test | proved | The exact sibling of C52. C89_iff is the claim about check_eye; C89_game and C89_try_play the claim about games. Symmetries are the bijections of the board that preserve neighbours. The eye test as a statement about the first empty corner that decides; not contested means all deciding corners agree. For a contested point one of the turns brings a broken, another a sound corner to the front, and C69 produces the turned board by accepted moves. |
| C90 No internal buffer overflows, no 32-bit counter wraps | proved | Model/Machine.lean has the same functions with capacity checks and u32 arithmetic; the theorems say that they agree with the functions every other property is about. C90_checks_bite shows that the checks can fail. A loop that adds at most one entry per neighbour over at most four neighbours; num_stones is a u16, at most four groups plus the own one are removed per call, and C57 bounds the stones of a whole life. |
| C91 Legal moves on boards that are not square, exactly | proved | C17, C18, C46 and C85 are the case h = w. C91_missed: on 4 x 2 legals can be empty, and the search be offered the pass alone, with four moves open. C91_moves_any_length has no bound on the stones put. The scan runs over the cells of the table in order; with w dividing h the cell i is read as the point (i / h, i mod w), so the first w rows are gone through h/w times. Filters that imply emptiness remove the occupied repetitions. |
| C92 Territories and scores on boards that are not square, exactly | proved | The case h = w is C20 to C22 and C86. C92_wrong_winner: on 6 x 2 a won game is given to the other side. C92_overcount: on 4 x 2 one stone makes 15 points of territory. Invariant of the loop that collects groups: every point gone through is gathered from a point where a search was started, and no such point from an earlier one. Since the rows are gone through in order, the searches are those from one empty point of the first row for each region, and from every stone of the first w rows. Listings are counted point by point. |
| C93 Importing the record of a game gives the game back | proved | Square boards, as stated; what the import does with a record of another shape is C82, the failure is C93_false_not_square. The record writer (`mainLine`, `rootOf`, `recorded`) is a specification of its own. The root node is read back field by field (`rootSays_rootOf`); the replay follows the run call by call (`replay`, induction on the calls): refused calls, `resume`, `set_komi` and resignations change only passes, komi and outcome, which `play` does not look at except for the assertion on passes (`countPasses`). |
| C94 What the players can force: determinacy and strategy stealing | proved | A call that panics (C87) is not an accepted move. Concrete cases: Black wins on 3 x 1 (C94_black_wins), a draw on 1 x 1 (C94_draw); the hypotheses are needed (C94_komi_matters, C94_setup_matters). `Reaches` (Spec/Strategy.lean) is the least relation closed under the three rules of a game tree, in terms of API calls. Determinacy: induction on 2·age + passes, which every accepted move increases and the group table bounds. Strategy stealing: `Mirror` relates a game and its colour exchange in the abstract state and in the number of group slots, and is kept by every accepted move (`Mirror.step`, with `stepSeen_swap`, `tryPlay_room`); results are exchanged (`Swapped.winner`, with `C44_score`); the first player passes and then has the second player's strategy. The witnesses are computed by a search proved sound (`reachesIn_reaches`). |
| C95 Rule flags are bits of a word, the history is searched by hash | proved | The sources of bitflags and indexmap are not in the project: `contains` and the like are written from their documentation, and of indexmap only completeness of the lookup is assumed (Lookup.Complete); C95_complete_needed shows that it is needed. Model/Words.lean repeats the functions that read flags or the history, with words and an arbitrary lookup. Bits by extensionality of words (`contains_bit`); the lookup by induction on the candidates (`hashedContains_any`) and C07; the calls by rewriting inside the same code, `==` being total on reachable boards. |
| C96 Scores on the words of f32 | proved | Rust leaves open which NaN an operation returns: a parameter that only has to be a NaN. Model/Single.lean writes the operations as whole-number algorithms in units of 2^-149. Rounding (`round_units`, `units_nearest`) is proved equal to the exact rounding of Model/F32.lean, which is proved against Spec/Float.lean; then each operation, the scores and the outcome. The square root by monotonicity of rounding between exact values. |
| C97 Questions about any pair of coordinates, exactly | proved | Proved without assuming that the pair is on the board; C97_on_board shows that for points of the board the definitions used are the ordinary ones. C97_super_ko_hidden rests on the Zobrist keys being non-zero: a stone on a hidden cell changes the hash, so that the made-up board equals none of the history. `Spec.Beside` counts bytes; `Spec.landsOn` is the pair an index is turned back into. The queries are computed for every pair (`*_from` lemmas of Proofs/Anywhere), with the board invariant for the colours, groups and liberties. `C97_overflow` is the debug case. `C97_check_ko` uses the simulation of C49. `C97_example` shows the wrap. |
| C98 Boards of every size, stones on any cell | proved | The weak companion of C01 to C08 for the sizes and coordinates those leave out. What is lost there, and not claimed, is that groups are connected and that the recorded liberties are the empty neighbours (C26_first_stone_iff). `Weak` (Proofs/Weak) is the part of the board invariant that does not speak of geometry: well-formed circular lists, matching tables and hash. It is preserved by every call in a release build; a debug build that returns gives the same result (C63) and does not loop (`Ends`). `AnyBoard` and `AnyGame` (Spec/AnySize) are the boards and games concerned; `Spec.Put` and `Goban.Groups` are the specification. |
| C99 The game as the tree search sees it | proved | The search itself (oxymcts) is not modelled: a descent is any sequence of offered moves. C99_any_length has no bound on the moves; C99_offered_and_panics: after a long game on 8 x 8 an offered move panics. `Descent` is any sequence of offered moves. Induction along it; the offered moves are those of C91_legals_moves, and C13 says that an accepted move is played. The passes at the end of the sequence are counted by `trailing`. |
| C100 Territories, scores and results on boards of every size | proved | The companion of C98 for the end of the game; C09, C86 and C92 are the sharper statements for sides that divide. `C100_outside` shows the damage: 17 points of territory, two of them outside the board, on 6 cells. The search of `get_group_from_point` is followed from any pair below 255, on the board or not (invariant `Roam`, adjacency is that of the real board because neighbours are checked with `is_coord_valid`); the loop over the starts is described by the recursive specification `Spec.starts`, the border loop by `Spec.Faces`. The scores use the lemmas of C86 for any game whose counts are small (`Tally`). |
| C101 chains() lists every group once | proved | C101_chains, C101_number, C101_record; a board with a dead group: C101_example. The origin of a group is its smallest index, so the listed origins are a permutation of the first stones of the groups of the position (defined on positions alone, Spec/Groups). |
| C102 Games from every start, asked or not | proved | C102_refines, C102_total, C102_checks, C102_position, C102_no_new_dead, C102_same_as_book; the book differs: C102_book_move_false, C102_book_suicide_false, C102_book_ko_false; C102_witness is a start with a dead group. Forward simulation against Spec/Local (positions only), without the assumption that groups have liberties; suicide and capture reduced to conditions around the point. |
| C103 Listings, item by item | proved | Model/Listing.lean has the iterators themselves: source items fixed when made, closures run when an item is drawn. C103_witness is a board where collecting panics and two calls of next succeed. One induction over the source for all listings (Yields); then each list function of the model is the collected listing. get_empty_coords never fails item by item, so checking points while drawing and checking them afterwards meet the same first panic. |
| C104 is_over looks at passes and resignations only | proved | Differs from the documentation of is_over; C104_while_legal: the documented meaning holds while a legal move is left. Witnesses on 2 x 2 and 1 x 1 boards. Induction over the moves with the passes at the end and the resignations; witnesses on 1 x 1 and 2 x 2 boards by evaluation. |
| C105 pretty_string draws the first point top left | proved | Differs from the documentation of pretty_string. From the rows of C37, character by character. |
| C106 Who begins in a built game | proved | Differs from the documentation of GameBuilder::put_handicap; no condition on size and points other than that build returns. From the last call of each setter, as for C29, without conditions on the points. |
| C107 The sizes on which the crate plays Go | proved | The converse of C49. The sizes on which it fails are found by evaluating the model on all 19 x 19 sizes (the whole domain), the abstract side is proved for all sizes. C107_every_rule is the complete statement; C107_sizes and C107_suicide_ko are its two halves; C107_differs and C107_differs_ko give the sequences of at most four calls. if: C49; only if: an explicit sequence per family of sizes (h = 1; 1 < h < w; w < h). The stone played on (0, h) also shows at (1, 0) when h < w; otherwise a stone in the corner is not captured. Code side by kernel evaluation over all sizes under the strictest rule, carried to every rule by C108; abstract side by reasoning on positions. |
| C108 What play looks at in the rule | proved | No hypotheses on the games at all. Every function of game.rs that reads the game is unfolded; induction on the sequence of calls. |
| C109 Machine words change nothing | proved | C90, C95 and C96 at once, for boards of any size and any coordinates; C109_go joins it to C107. What is assumed of the hash table is Lookup.Complete (C95_complete_needed shows that it is needed). A second model of Game whose fields have the types of the code (Model/Whole.lean). Each call commutes with the map from words to what they stand for; the bounds come from the life of a board (C98) and the invariants of boards of any size; induction on the sequence of calls. |
| C110 The stones of a group one of whose stones has been overwritten | proved | Together with C76, what a stone on an occupied point does to the board. C110_play_hangs is a pair of concrete games and shows that play can loop; the other theorems are general. Attaching a stone writes only the links of the new stone and of the groups it joins (Proofs/Damage.lean). So the links of the old group's other stones stay; the part of the circle before the overwritten stone now leads into the circle of the new group, which is closed and does not contain the origin. A walk in a closed set without the origin never stops. |
| C111 The sizes on which zobrist_hash tells positions apart | proved | Completes C06 and C48. Users of the hash as a key (transposition tables) can rely on it up to 32 points only; the history of the crate compares boards with == and is not affected (C95). The hash is linear over the field with two elements. Elimination on the keys of the code (proved sound, evaluated for all sizes) gives independence; for the other sizes a table of pairs of positions found by elimination, checked by evaluation, and C69 to reach them in play. Two points: the 1083 possible changes of the hash by one point are pairwise different. |
| C112 What a stone does to the score | proved | An accepted try_play is the same play (C13). On boards with more rows than columns territory is listed differently (C92) and nothing of this is claimed. About positions first (Proofs/Area): the area of a position is counted point by point; a stone on own territory turns a held point into a held point and captures nothing, as a neighbour of own territory is empty or own; elsewhere every point held stays held, the captured points and the new one become held, and no point becomes held by the opponent. C09 for the move, C11 for the prisoners, C21 for the scores. |
| C113 Play-outs are unbiased | proved | That the shuffle of the rand crate makes all orders equally likely is the hypothesis, built into meanOfOrders (the mean over List.permutations). C113_within ties the means to the runs of playout with given shuffles. C75 is the statement about which results are possible. The first wanted entry of a list over all its orders (Proofs/Chance): exchanging two wanted entries is a bijection of the orders, so each is first equally often; entries listed several times are told apart by their places. Both policies return the first wanted entry (wanted: accepted and no eye). Whole play-outs by induction on the rounds; fairness by the colour exchange of C44, which keeps the wanted points. |
| C114 Ko forbids one point, for one turn | proved | C14 says when check_ko is true; C114 says what that means over a game. With super-ko try_play answers Ko for repetitions as well, hence the hypothesis of C114_refused. On a suicidal play (rules that allow suicide) check_ko may be true although nothing would be repeated (C15, C53), hence the hypothesis of C114_recapture. From the simulation of games by the specification state (Proofs/Refine, Proofs/Seen): KoSeen names the only point where a stone of the side to move vanished at the last stone, so it is unique, and a point that is empty before a move cannot be such a point after it. C114_recapture combines C14_check_ko, C09 and C11. |
| C115 It takes as many stones as a group has liberties to take it | proved | C09 says what one stone does; C115 follows a group over a game. Overwriting plays (play on an occupied point, C28) and play on a finished board are outside: the continuation plays on empty points. A continuation by accepted try_play is a special case (Later.tryPlay). Later is the inductive continuation with the list of points played. keep_group: by C09_play_local a stone linked to an empty point after the play survives, and linked stones stay linked; induction over Later. The counts come from C03_liberties and subperm_of_subset. |
| C116 Without super-ko the past does not matter: transpositions | proved | C62 is the same with equal histories, and covers super-ko. C116_in_step: games that show the same and used as many group records return or panic together. C116_all_legals: legal moves without super-ko never panic, in games of any length. C116_transposition needs at least one stone: with none put, an accepted pass clears the ko point while doing nothing does not. Both games simulate specification states that differ only in played and before; without super-ko the answers depend on before only through the ko point (Sim.koSeen_iff). Induction over the calls. Transpositions: induction over Puts with C11_play (no prisoner, so nothing vanished) and C09_play_local. |
| C117 Komi only ever helps White, and only one komi makes a finished game a draw | proved | Komi is an f32: the order is that of values with the infinities at the ends (NaN and a score of infinity minus infinity are C26). Rounding (Spec.Rounded) is monotone, so adding a larger komi gives a score that is not smaller; decide_mono goes through the comparisons of get_outcome. The exact claims use C64_any_size_exact. |
| C118 What the players can force under different komi: the fair komi | proved | Nobody resigns (C94). With prisoners counted the score of long games is rounded, so the exact fair komi is claimed for area counting only. Concrete case: on 3 x 1 under the Chinese rule the fair komi is 2 (C118_row; 2 and not 3 because of C92). Moves accepted by try_play do not depend on komi (SamePlay), so a strategy for one komi is one for another; Reaches.komi transfers it given what happens to winners of finished games (winner_mono, area_winner). The fair komi: with komi -2^19 Black wins every finished game and with 2^19 White does; take the point where Black stops forcing a win, determinacy (C94_determined) gives White the rest; an odd number of half points cannot be the first since no game is drawn there. |
| C119 A living majority wins | proved | The opponent may play into the regions and may even be to move. Concrete case: six points of nine on 3 x 3 (C119_six_of_nine). A held point is a stone of the player or territory of the player in every position without dead groups in which the stones live (held_counts); area_total (C60) bounds the opponent. Living is preserved by lives_call (C68). For the strategy: if the win could not be forced, the opponent could secure the contrary (C94_determined); induction over that strategy, answering every move with a pass, ends in a finished game that contradicts the bound. |
| C120 What one stone does to the groups and their liberties | proved | C08, C09 and C03 say what the stones and liberties are in each position; this states the change from one position to the next. Which groups are taken is C09 and C115_atari. C120_other, C120_far and C120_own: play is the local rule of C09 on the position; a stone standing after it stands with all it was connected with (stand_together), so groups without the point keep their stones (other_stones) and the group with it is the union (own_stones). Liberties of a live group are the empty points next to its stones (libs_spec, C03), and a point empty before is empty after unless it is the point played on. |
| C121 A position that comes back | proved | C41 is the two-stone case. Without super-ko, or with it as coded (C15), positions do come back: C121_example has three stones on 3 x 3 under the Japanese rule. Stones on the board plus prisoners grow by the stones put (Plays.conserve, by induction over the calls); the stones on the board are those of the position. Scores by C21, the result by C22. The bound of three: one accepted stone stands, two are C41; the players alternate, so the numbers of stones differ by at most one and are equal when the same player is to move. |
| C122 How many liberties, groups and stones fit on a board | proved | C122_example: a row of three stones with eight liberties and one stone with four. Boards set up with groups without liberties are outside C122_room and C122_taken: they can be full. The stones of a group are joined one after the other, each next to an earlier one (by induction on the stones not yet joined, from the connection in C02); each new stone takes one point from the border and adds at most three. The total: a pair of a group and a liberty of it is a pair of an empty point and one of its four neighbours, and the neighbour tells the group. Room from C10, the number taken from the conservation of stones (C11, C121). |
| C123 Which stones can be taken from a player who only passes | proved | The converse of C68 for rules that forbid suicide. C123_example: under CHINESE and JAPANESE rules a group with one eye and white stones elsewhere, taken in five rounds; the two-eyed group of C68 is an example of living stones. Rules that allow suicide are the subject of C124: the criterion there asks more of a region. Under super-ko the capturing stone could be refused if it restores an earlier position; hence the condition. On positions: if some stone does not live, some group has at most one vital region among the regions between stones of its colour. Such a group has a liberty whose play is no suicide: its last liberty captures; in a region that is not vital an empty point away from the group remains; and two liberties in the one vital region leave each other. The stone played on a liberty of such a group makes no stones live that did not live before: a region containing a taken stone or the played stone is not vital to any group that could live. The opponent's stones only increase, which bounds the attack and answers super-ko. The calls are accepted by the abstract game of C49 and hence by the code. The other direction is C68. |
| C124 Which stones can be taken from a player who only passes, where suicide is allowed | proved | The converse of C68 for rules that allow suicide, and the counterpart of C123. C124_example: a group with one eye and a corner of four points with an opposing stone in it; it lives where suicide is forbidden, and where it is allowed it is taken in ten rounds, the third of which is a suicide. Super-ko is excluded: clearing a region restores earlier positions. The bound on the number of stones is far from sharp. On positions: if some stone does not live, some group has at most one region all of whose points are next to it. If it has at most one region whose empty points are all next to it, the move of C123 serves; otherwise one region has its empty points next to the group and an opposing stone that is not. There the attacker plays on an empty point: either the stone has a liberty, or it joins all stones of the region and the suicide clears it. Counting for each point whether it is empty and whether it is in such a region, each move that takes nothing lowers the count, so some stones are taken after at most two moves per point. Taking whole groups makes no stones live that did not live before, because a region containing a taken stone has a point away from all remaining stones. Induction on the stones of the player who passes. The calls are accepted by the abstract game of C49 and hence by the code. The other direction is C68. |
| C125 is_atari says exactly which groups the next stone can take | proved | C115_atari is the other half (only groups in atari are taken, on their last liberty). Examples: two stones taken on their last liberty, and a ko where the stone in atari cannot be taken back at once. On positions: a stone on the only liberty of an opposing group takes it, so it is not suicide, and the point is not an eye because one of its neighbours is an opposing stone. The decision list of C13 then leaves ko and super-ko; what check_ko means (KoSeen, C14) gives that the group is a single stone. After a pass check_ko is false (C14). The converse is C115_atari. |
| C126 Two groups with two common liberties can be connected whatever the opponent does | proved | The third liberty is needed: without it the connecting stone can be suicide. Example: a bamboo joint on 5 × 5. C115 keeps both groups and the points not played on as their liberties; one of three distinct points is still a liberty besides the point to be played, so the stone is not suicide. The point was empty before the opponent's call, so the call did not take a stone there and check_ko is false. C13 decides; C120 gives the stones of the new group. |
| C127 The fourth stone: which games of four stones are accepted, and how many there are | proved | C127_count gives the number of accepted sequences on every supported board, C127_perft the value of the function. C73 has the first three plies; on 2 x 2 the formulas are false (example there). After three stones the position is known point by point (C73's Early invariant for the first two, then a capture is possible only in a corner). The decision list of C13 is worked out on it: suicide exactly in a corner between the two stones of the opponent, ko exactly if the stone taken stood there, no eye and no repetition. The sums over all quadruples are split by inclusion and exclusion; the corners give 4 x 2 pairs. |
| C128 Self-atari and seki | proved | The Japanese, simple-ko rules have no super-ko, so there the opponent's stone is always accepted. The liberties after the stone are read off C03 on the new board: the group's own without the point played, and no new one by the hypotheses on the neighbours; the opponent's stone is then C125's capture of a group in atari. Standing: along every continuation that leaves one of the two points empty, that point stays a liberty of both groups. |
| C129 The positions in which play-outs and simulations stop | proved | C129_stop is the position; C129_sensible the end of a game of such moves; C129_playout and C129_simulation say that play-outs and simulations are such games. C129_settled: below the limit of the group table, nothing to play but own eyes means no accepted play that fills no own eye. For a player with nothing to play but eyes, the answer at each empty point is suicide, ko, or an eye. Suicide for both colours is impossible: the same neighbour would have to have and not have a further liberty. A one-colour surrounding is territory, and C60 counts the rest; the ko answers are at most one point by C114. A pass of the policies means that check_point answered an error at every point but eyes; no bound on the length is needed. |
| C130 Without super-ko a cycle of play can be repeated until the group table is full | proved | C130_same is stronger than the first claim of C116 in that prisoners and results may differ. The example beside the theorems is a cycle of four moves on a 3 x 1 board. C72_small applies C130_ends to a cycle on each narrow board. Runs do not read prisoners or results (run_forget), so C116's simulation applies (run_past). Induction over the repetitions. Each accepted stone raises the age of the board, which is bounded (C57). |
| C131 What a caught panic leaves behind | proved | A limitation of the code, stated as theorems. C131_same_calls ties the model that keeps the value after a panic (Model/Unwind) to the model of the calls: same answers, same boards and games. C131_push_reached, C131_game_reached and C131_preview_reached are boards and games that meet the hypotheses; in the first White's stone shows as Black's. (5) and (6) are about points with nothing beside them; a stone beside others after a panic is not treated. C131_same_setup, C131_push_many and C131_put_handicap are (7), with C131_handicap_reached as a case on 9 × 9. C131_index_loop, C131_index_loop_board and C131_index_loop_left justify the one loop that Model/Unwind does not write step by step. Model/Unwind writes the calls on &mut self as state transformers that keep the state on a panic, one step per assignment; Proofs/Unwind shows that forgetting that state gives the model of the calls. push_left computes the board left by create_chain from the invariant. ghost_push computes the next push: its group has index 65,536, which is 0 in the sixteen bits of the board. (7) is an induction over the stones already put. |
| C132 What a caught panic of a stone beyond the table leaves behind | proved | A limitation of the code, stated as theorems. C132_cut is (3), and C132_reached a case on 19 × 19. The model of the calls is the one tied to the rest by C131_same_calls. C132_game_reached is a 19 × 19 game in which the damage shows: a legal capture panics later on. push_off_cases follows the call: clearing a liberty bit that is clear changes nothing (clear_same), in a debug build it panics first, and create_chain panics at its first assignment. add_stone_to_chain writes the link from the last stone of the group before the one that panics; walk_off shows that the group cannot be walked any more. |
| C133 What a caught panic of a stone put on a stone leaves behind in a debug build | proved | A limitation of the code, stated as theorems. C133_left is (2) and (3), and C133_reached a game on 9 × 9 for (2). The model of the calls is the one tied to the rest by C131_same_calls. C133_after is (5) and C133_game_after is (6); C133_after_reached continues the game: the play of an empty point panics, a pass is accepted. over_cases follows the call: an occupied point is no group's liberty, so the first remove_liberty panics. With two groups or more around, that is the one after create_chain and all the merges; these are carried out on the board without the lone stone and transferred with Gr, as in C76. The release build goes the same way (createChain_le, mergeStep_le) and clears a bit that is clear. For (5), the points and groups left are those of a sound board apart from one record too many (att_inv, Gr); the push on an empty point is carried out on that board and transferred, and the integrity check at its end walks the extra record and does not end at its last stone (spoilt_push). (6) is an induction over the calls (AskedLater). |
| C134 What a caught panic of remove_chain leaves behind | proved | A limitation of the code, stated as theorems. C134_cut is (2), whose hypotheses hold of the board of C132_reached; C134_game_reached is (3). C134_same_call ties the model that keeps the board on a panic to the rest. remove_chain is written again step by step with the board kept on a panic (Model/Unwind.lean). loop_off: the loop over a group whose last link leads beyond the table runs its body for every stone and then fails. The body neither reads nor writes the links (removeStone_next), so it does what it does on the sound board (removeStones_ok). |

## 9. Wrong programs

`seeded/LOG.jsonl` has one line per attempt: an edit of one definition of the model in a scratch copy, the properties whose English
claim the edit makes false, and what became of their theorems after a rebuild. A theorem counts as failed when its own proof, or
the proof of a lemma it uses, no longer goes through; this does not by itself show that its statement has become false. A theorem
listed as still proving does hold of the wrong program. Witnesses of false properties and clauses about other functions are
expected among the latter; an attempt is a success when at least one theorem of each claim fails.
In the later attempts the build was stopped as soon as every claim had a failing theorem; their lines say so in `run` and list only
the failures up to then.
