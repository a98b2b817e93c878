import Verif.Tests.Records
import Verif.Model.Iter
import Verif.Model.DeadStones
/-!
# The repository's own tests, run on the model

Every deterministic test of tests/general_tests.rs (and the one in src/pieces/group.rs) is transcribed and evaluated on the model, in both
build profiles. The expected values are those asserted in the repository. These are tests of the model, not proofs about it: nothing
elsewhere depends on this file.

Not transcribed: `sizes` (memory layout), `goban` (prints only), `some_plays` and `dead_stones` (random).
-/

namespace Model.Tests
open Sgf

/-- Runs a test in both build profiles; a panic is a failure. -/
def check (t : Bool → M Bool) : Bool := [true, false].all (fun dbg => match t dbg with
  | .ok b => b
  | .error _ => false)

/-- `g.play` for all the moves. -/
def plays (dbg : Bool) (g : Game) (ms : List Move) : M Game := ms.foldlM (fun g m => g.play dbg m) g

/-- `g.try_play(m).unwrap()` for all the moves. -/
def tries (dbg : Bool) (g : Game) (ms : List Move) : M Game := ms.foldlM (fun g m => do
  let r ← g.tryPlay dbg m
  assertM r.1.isNone
  .ok r.2) g

/-- A literal `f32`. -/
def f (q : Rat) : F32 := .fin q

-- `goban_new_array`: tests/general_tests.rs:31-39
#guard check (fun dbg => do
  let g ← Goban.new (19, 19)
  let g ← g.push dbg (1, 2) .white
  let g ← g.push dbg (1, 3) .black
  let g2 ← Goban.ofSlice dbg (← g.toVec)
  g.beq g2)

-- `passes`: tests/general_tests.rs:41-49
#guard check (fun dbg => do
  let g ← plays dbg (← Game.new .nine CHINESE) [.play 3 3, .pass, .play 4 3]
  .ok ((← g.goban.getColor (4, 3)) == some .black))

-- `get_all_stones`: tests/general_tests.rs:51-69
#guard check (fun dbg => do
  let g ← Goban.new (19, 19)
  let g ← g.push dbg (1, 2) .white
  let g ← g.push dbg (0, 0) .black
  .ok ((← g.getStones) == [⟨(0, 0), .black⟩, ⟨(1, 2), .white⟩]))

-- `test_eye`: tests/general_tests.rs:88-112
#guard check (fun dbg => do
  let g ← fromNodes dbg sgfShusaku
  let es ← [(⟨(0, 14), .white⟩ : Stone), ⟨(0, 12), .white⟩, ⟨(1, 11), .white⟩, ⟨(1, 8), .black⟩, ⟨(17, 18), .black⟩].mapM (g.checkEye dbg)
  .ok (es == [true, true, true, false, false]))

-- `some_plays_from_sgf`: tests/general_tests.rs:114-466
#guard check (fun dbg => do
  let g ← (← Game.new .nineteen CHINESE).putHandicap dbg [(3, 3), (3, 15), (9, 3), (9, 15), (15, 3), (15, 15)]
  let g ← tries dbg g (movesSgf.map (fun m => match m with
    | .play x y => .play (18 - x) y
    | m => m))
  let _ ← g.calculateScore dbg id
  .ok (g.isOver && g.prisoners == (16, 35)))

-- `atari`: tests/general_tests.rs:468-491
#guard check (fun dbg => do
  let g ← (← Goban.new (9, 9)).pushStone dbg ⟨(4, 4), .black⟩
  let g ← (← g.getLiberties dbg (4, 4)).foldlM (fun g c => g.pushStone dbg ⟨c, .white⟩) g
  .ok ((← g.getLiberties dbg (4, 4)).length == 0))

-- `atari_2`: tests/general_tests.rs:493-504
#guard check (fun dbg => do
  let g ← plays dbg (← Game.new .nine CHINESE) [.play 1 0, .play 0 0, .play 0 1]
  .ok ((← g.goban.getColor (0, 0)) == none))

-- `game_finished`: tests/general_tests.rs:506-513
#guard check (fun dbg => do
  let g ← plays dbg (← Game.new .nine CHINESE) [.pass, .pass]
  .ok g.isOver)

-- `calculate_score`: tests/general_tests.rs:515-524
#guard check (fun dbg => do
  let g ← plays dbg (← Game.new .nine JAPANESE) [.play 4 4, .pass, .pass]
  .ok ((← g.calculateScore dbg id) == (f 80, JAPANESE.komi)))

/-- The board of `calculate_score2`. -/
def score2 (dbg : Bool) : M Game := do
  let g ← Game.new .nineteen CHINESE
  tries dbg (g.setKomi (f 0)) ((List.range 38).map (fun x => .play (if x % 2 = 0 then 9 else 8) (x / 2)))

-- `calculate_score2`: tests/general_tests.rs:526-572
#guard check (fun dbg => do
  let g ← score2 dbg
  let s ← g.calculateScore dbg id
  let b ← g.goban.pushMany dbg ((List.range 9).map (fun x => (x + 10, 3))) .black
  let b ← b.pushMany dbg [(11, 6), (11, 7), (11, 8), (12, 6), (12, 8), (13, 6), (13, 7), (13, 8)] .white
  let t ← b.calculateTerritories dbg id
  let b ← b.pushMany dbg [(17, 18), (18, 17), (18, 15), (17, 16), (16, 17), (15, 18)] .black
  let t' ← b.calculateTerritories dbg id
  .ok (s == (f 190, f 171) && t == (27, 8 * 19 + 1) && t' == (27 + 4, 8 * 19 + 1)))

-- `calculate_chinese_score`: tests/general_tests.rs:574-592
#guard check (fun dbg => do
  let g ← plays dbg (← Game.new .nine CHINESE) [.play 4 4, .pass, .pass]
  let o ← g.getOutcome dbg id
  let s ← g.calculateScore dbg id
  .ok (s == (f 81, g.rule.komi) && o == some (.winnerByScore .black ((f 81).sub g.rule.komi))))

-- `zobrist_test`: tests/general_tests.rs:594-604
#guard check (fun _ => do
  let l ← ((List.range 361).flatMap (fun i => [(i, Color.black), (i, .white)])).mapM (fun x => indexZobrist x.1 x.2)
  .ok (decide l.Nodup))

-- `ko_test`: tests/general_tests.rs:606-629
#guard check (fun dbg => do
  let g ← plays dbg (← Game.default) [.play 0 3, .play 0 2, .play 1 4, .play 2 2, .play 2 3, .play 1 1, .play 1 2, .play 1 3]
  let ko ← g.checkKo dbg ⟨(1, 2), .black⟩
  let ls ← g.legals dbg
  let r ← g.tryPlay dbg (.play 1 2)
  .ok (ko && !ls.any (· == (1, 2)) && r.1 == some .ko))

-- `four_in_the_corner_super_ko`: tests/general_tests.rs:631-657
#guard check (fun dbg => do
  let g ← plays dbg (← fromNodes dbg sgfFour) [.play 6 5, .play 6 3]
  g.checkSuperKo dbg ⟨(6, 4), .black⟩)

-- `ko_test_2`: tests/general_tests.rs:659-680
#guard check (fun dbg => do
  let _ ← tries dbg (← Game.new .nineteen CHINESE) [.play 0 2, .play 0 1, .play 0 3, .play 1 2, .play 1 4, .play 1 3, .play 0 5,
    .play 2 4, .play 2 5, .play 0 4, .play 0 3]
  .ok true)

-- `suicide_test`: tests/general_tests.rs:682-704
#guard check (fun dbg => do
  let g ← plays dbg (← Game.default) [.play 0 2, .play 0 0, .play 1 1, .play 1 0, .play 2 0]
  let su ← g.checkSuicide dbg ⟨(0, 1), .white⟩
  let ls ← g.legals dbg
  let r ← g.tryPlay dbg (.play 0 1)
  .ok (su && !ls.any (· == (0, 1)) && r.1.isSome))

-- `snap_back_test`: tests/general_tests.rs:706-727
#guard check (fun dbg => do
  let g ← plays dbg (← Game.new .nineteen JAPANESE) [.play 3 3, .play 2 2, .play 2 4, .play 2 3, .play 4 2, .play 3 5, .play 1 3,
    .play 3 4, .play 3 1, .play 4 3, .play 2 1, .play 5 3, .play 1 2, .play 3 2]
  let _ ← tries dbg g [.play 3 3]
  .ok true)

-- `ko_pass`: tests/general_tests.rs:730-743
#guard check (fun dbg => do
  let g ← plays dbg (← Game.new .nineteen JAPANESE) [.play 1 1, .play 0 1, .play 2 0, .play 1 0, .play 0 0, .pass]
  let _ ← tries dbg g [.play 1 0]
  .ok true)

-- `suicide_labeled_as_ko`: tests/general_tests.rs:745-755
#guard check (fun dbg => do
  let g ← plays dbg (← Game.new .nineteen JAPANESE) [.play 0 1, .play 0 0, .play 1 0]
  let r ← g.tryPlay dbg (.play 0 0)
  .ok (r.1 == some .suicide))

-- `sgf_test`: tests/general_tests.rs:758-767
#guard check (fun dbg => do
  let g ← fromNodes dbg sgfShusaku
  let _ ← g.calculateScore dbg id
  .ok ((← g.getOutcome dbg id) == some (.winnerByScore .black (f 2)) && g.prisoners == (31, 29)))

-- `sgf_test_2_2ha`: tests/general_tests.rs:769-778
#guard check (fun dbg => do
  let g ← fromNodes dbg sgf2
  let _ ← g.calculateScore dbg id
  .ok ((← g.getOutcome dbg id) == some (.winnerByScore .black (f 1)) && g.prisoners == (25, 26)))

-- `sgf_test_1`: tests/general_tests.rs:780-790
#guard check (fun dbg => do
  let g ← fromNodes dbg sgf1
  let _ ← g.calculateScore dbg id
  .ok ((← g.getOutcome dbg id) == some (.winnerByResign .white) && g.prisoners == (2, 9)))

-- `circular_ren_iter_test`: src/pieces/group.rs:277-305
#guard check (fun dbg => do
  let a := [0, 0, 4, 0, 6, 0, 2, 0, 8, 0, 0, 0]
  let (l1, _) ← CircularGroupIter.steps dbg 5 { nextStone := a, origin := 2, next := some 2, numStones := 3 }
  let (l2, _) ← CircularGroupIter.steps dbg 3 { nextStone := a, origin := 8, next := some 8, numStones := 1 }
  .ok (l1 == [some 2, some 4, some 6, none, none] && l2 == [some 8, none, none]))

end Model.Tests
