import Verif.Proofs.Profile
import Verif.Props.Same
import Verif.Props.Builder
import Verif.Props.Limits
/-!
# Debug and release builds: C63
-/

namespace Model
open Spec (OnBoard Adj Linked HasLiberty NoDead place SameOn Pos Suicide State)

variable {n : Dim} {m : Nat} {g : Game}

/-! ## C63 -/

/-- **C63**, boards: whatever a call returns in a debug build it returns in a release build, in every state whatsoever. -/
theorem C63_boards (b : Goban) :
    (∀ p c r, b.push true p c = .ok r → b.push false p c = .ok r) ∧
    (∀ ps c r, b.pushMany true ps c = .ok r → b.pushMany false ps c = .ok r) ∧
    (∀ s r, b.pushStone true s = .ok r → b.pushStone false s = .ok r) ∧
    (∀ k r, b.removeChain true k = .ok r → b.removeChain false k = .ok r) ∧
    (∀ k r, b.chainStonesIdx true k = .ok r → b.chainStonesIdx false k = .ok r) ∧
    (∀ p r, b.chainStonesCoord true p = .ok r → b.chainStonesCoord false p = .ok r) ∧
    (∀ i r, b.connectedGroupsIdx true i = .ok r → b.connectedGroupsIdx false i = .ok r) ∧
    (∀ c r, b.getCoordsByColor true c = .ok r → b.getCoordsByColor false c = .ok r) ∧
    (∀ p r, b.connectedPoints true p = .ok r → b.connectedPoints false p = .ok r) ∧
    (∀ p r, b.connectedStones true p = .ok r → b.connectedStones false p = .ok r) ∧
    (∀ p r, b.connectedGroups true p = .ok r → b.connectedGroups false p = .ok r) ∧
    (∀ p r, b.getLiberties true p = .ok r → b.getLiberties false p = .ok r) ∧
    (∀ p r, b.hasLiberties true p = .ok r → b.hasLiberties false p = .ok r) ∧
    (∀ c r, b.getStonesByColor true c = .ok r → b.getStonesByColor false c = .ok r) ∧
    (∀ ord r, b.territories true ord = .ok r → b.territories false ord = .ok r) ∧
    (∀ ord r, b.calculateTerritories true ord = .ok r → b.calculateTerritories false ord = .ok r) ∧
    (∀ l r, Goban.ofSlice true l = .ok r → Goban.ofSlice false l = .ok r) :=
  ⟨fun p c => (b.push_le p c).ok, fun ps c => (b.pushMany_le ps c).ok, fun s => (b.pushStone_le s).ok,
   fun k => (b.removeChain_le k).ok, fun k => (b.chainStonesIdx_le k).ok, fun p => (b.chainStonesCoord_le p).ok,
   fun i => (b.connectedGroupsIdx_le i).ok, fun c => (b.getCoordsByColor_le c).ok, fun p => (b.connectedPoints_le p).ok,
   fun p => (b.connectedStones_le p).ok, fun p => (b.connectedGroups_le p).ok, fun p => (b.getLiberties_le p).ok,
   fun p => (b.hasLiberties_le p).ok, fun c => (b.getStonesByColor_le c).ok, fun o => (b.territories_le o).ok,
   fun o => (b.calculateTerritories_le o).ok, fun l => (Goban.ofSlice_le l).ok⟩

/-- **C63**, games: the same. -/
theorem C63_games (g : Game) :
    (∀ mv r, g.play true mv = .ok r → g.play false mv = .ok r) ∧
    (∀ mv r, g.tryPlay true mv = .ok r → g.tryPlay false mv = .ok r) ∧
    (∀ cs r, g.run true cs = .ok r → g.run false cs = .ok r) ∧
    (∀ r, g.pseudoLegalsVec true = .ok r → g.pseudoLegalsVec false = .ok r) ∧
    (∀ r, g.legals true = .ok r → g.legals false = .ok r) ∧
    (∀ f r, g.legalsBy true f = .ok r → g.legalsBy false f = .ok r) ∧
    (∀ p r, g.checkPoint true p = .ok r → g.checkPoint false p = .ok r) ∧
    (∀ p f r, g.checkPointBy true p f = .ok r → g.checkPointBy false p f = .ok r) ∧
    (∀ s r, g.checkEye true s = .ok r → g.checkEye false s = .ok r) ∧
    (∀ s r, g.checkKo true s = .ok r → g.checkKo false s = .ok r) ∧
    (∀ s r, g.checkSuperKo true s = .ok r → g.checkSuperKo false s = .ok r) ∧
    (∀ s r, g.checkSuicide true s = .ok r → g.checkSuicide false s = .ok r) ∧
    (∀ p r, g.willCapture true p = .ok r → g.willCapture false p = .ok r) ∧
    (∀ ps r, g.putHandicap true ps = .ok r → g.putHandicap false ps = .ok r) ∧
    (∀ ord f r, g.calculateScoreBy true ord f = .ok r → g.calculateScoreBy false ord f = .ok r) ∧
    (∀ ord r, g.getOutcome true ord = .ok r → g.getOutcome false ord = .ok r) ∧
    (∀ ord r, g.calculateScore true ord = .ok r → g.calculateScore false ord = .ok r) ∧
    (∀ r, g.legalsMoves true = .ok r → g.legalsMoves false = .ok r) ∧
    (∀ ord r, g.traitWinner true ord = .ok r → g.traitWinner false ord = .ok r) ∧
    (∀ ord c r, g.evaluateLeaf true ord c = .ok r → g.evaluateLeaf false ord c = .ok r) ∧
    (∀ r, g.floatingStones true = .ok r → g.floatingStones false = .ok r) ∧
    (∀ sh k r, g.playout true sh k = .ok r → g.playout false sh k = .ok r) ∧
    (∀ b r, g.deadChains true b = .ok r → g.deadChains false b = .ok r) ∧
    (∀ best k r, g.simulate true best k = .ok r → g.simulate false best k = .ok r) ∧
    (∀ best k r, g.deadStones true best k = .ok r → g.deadStones false best k = .ok r) :=
  ⟨fun mv => (g.play_le mv).ok, fun mv => (g.tryPlay_le mv).ok, fun cs => (Game.run_le cs g).ok, g.pseudoLegalsVec_le.ok,
   (g.legalsBy_le _).ok, fun f => (g.legalsBy_le f).ok, fun p => (g.checkPoint_le p).ok, fun p f => (g.checkPointBy_le p f).ok, fun s => (g.checkEye_le s).ok, fun s => (g.checkKo_le s).ok,
   fun s => (g.checkSuperKo_le s).ok, fun s => (g.checkSuicide_le s).ok, fun p => (g.willCapture_le p).ok,
   fun ps => (g.putHandicap_le ps).ok, fun o f => (g.calculateScoreBy_le o f).ok, fun o => (g.getOutcome_le o).ok,
   fun o => (g.calculateScoreBy_le o _).ok, g.legalsMoves_le.ok, fun o => (g.traitWinner_le o).ok, fun o c => (g.evaluateLeaf_le o c).ok,
   g.floatingStones_le.ok, fun sh k => (Game.playout_le sh k g).ok, fun b => (g.deadChains_le b).ok,
   fun best k => (Game.simulate_le best k g).ok, fun best k => (g.deadStones_le best k).ok⟩

/-- **C63**, builders and game records: the same. -/
theorem C63_builders (b : GameBuilder) (ns : List (List Sgf.Token)) :
    (∀ r, b.build true = .ok r → b.build false = .ok r) ∧ (∀ r, Sgf.fromNodes true ns = .ok r → Sgf.fromNodes false ns = .ok r) :=
  ⟨b.build_le.ok, (Sgf.fromNodes_le ns).ok⟩

theorem Le.eq_of_total {α : Type} {x y : M α} (h : Le x y) (ht : ∃ r, x = .ok r) : x = y := by
  obtain ⟨r, e⟩ := ht
  rw [e, h.ok r e]

theorem Board.release {b : Goban} (h : Board true n m b) : Board false n m b := by
  induction h with
  | new hf e => exact .new hf e
  | push _ hp he e ih => exact .push ih hp he ((Goban.push_le ..).ok _ e)
  | remove _ hl e ih => exact .remove ih hl ((Goban.removeChain_le ..).ok _ e)

theorem Board.debug {b : Goban} (h : Board false n m b) (hm : m ≤ 65535) : Board true n m b := by
  induction h with
  | new hf e => exact .new hf e
  | @push m b b' p c h0 hp he e ih =>
    have ih := ih (by omega)
    refine .push (c := c) ih hp he ?_
    obtain ⟨r, e', _⟩ := C01_push (c := c) ih (by omega) hp he
    rw [Le.eq_of_total (Goban.push_le ..) ⟨r, e'⟩]; exact e
  | remove h0 hl e ih =>
    have ih := ih hm
    refine .remove ih hl ?_
    obtain ⟨grp, hg⟩ := hl
    obtain ⟨l, hl⟩ := group_spec (dbg := true) ih.inv.1 (live_ch.1 hg)
    obtain ⟨r, e', _⟩ := C08_remove_chain ih hl.stones
    rw [Le.eq_of_total (Goban.removeChain_le ..) ⟨r, e'⟩]; exact e

/-- **C63**. The boards that can be reached are the same in the two builds. -/
theorem C63_same_boards {b : Goban} (hm : m ≤ 65535) : Board true n m b ↔ Board false n m b := ⟨Board.release, fun h => h.debug hm⟩

theorem Fresh.release (h : Fresh true n m g) : Fresh false n m g := by
  induction h with
  | new hf hs e => exact .new hf hs e
  | build hf h1 h2 h3 h4 e => exact .build hf h1 h2 h3 h4 ((GameBuilder.buildInner_le _).ok _ e)
  | handicap _ h1 h2 e ih => exact .handicap ih h1 h2 ((Game.putHandicap_le ..).ok _ e)

theorem Reach.release (h : Reach true n m g) : Reach false n m g := by
  induction h with
  | fresh h => exact .fresh h.release
  | play _ hp he e ih => exact .play ih hp he ((Game.play_le ..).ok _ e)
  | pass _ e ih => exact .pass ih e
  | resign _ e ih => exact .resign ih e
  | resume _ ih => exact .resume ih
  | setKomi _ ih => exact .setKomi ih

theorem Legal.release (h : Legal true n m g) : Legal false n m g := by
  induction h with
  | fresh h hd => exact .fresh h.release hd
  | tryPlay _ hp e ih => exact .tryPlay ih hp ((Game.tryPlay_le ..).ok _ e)
  | resume _ ih => exact .resume ih
  | setKomi _ ih => exact .setKomi ih

theorem Fresh.debug (h : Fresh false n m g) (hm : m ≤ 65535) : Fresh true n m g := by
  induction h with
  | new hf hs e => exact .new hf hs e
  | @build b g hf h1 h2 h3 h4 e =>
    refine .build hf h1 h2 h3 h4 ?_
    have hn := (Fresh.build hf h1 h2 h3 h4 e).spec.board.inv.1.good
    obtain ⟨g', _, e', _⟩ := C29_build (dbg := true) h1 hf hn.h19 hn.w19 h3 h4
    unfold GameBuilder.build at e'
    obtain ⟨g1, e1, _⟩ := bind_eq_ok e'
    have : b.setMoves [] = b := by rw [← h2]; rfl
    rw [this] at e1
    rw [Le.eq_of_total (GameBuilder.buildInner_le _) ⟨_, e1⟩]; exact e
  | @handicap m g ps g' h0 h1 h2 e ih =>
    have ih := ih (by omega)
    refine .handicap ih h1 h2 ?_
    have hI := ih.spec.board
    have ht : ∃ r, g.putHandicap true ps = .ok r := by
      unfold Game.putHandicap
      rw [pushMany_eq]
      rcases pushAll_total (ps.map (fun p => { coord := p, color := .black })) hI (by
          rw [List.map_map]; show (ps.map id).Nodup; rw [List.map_id]; exact h1) (by
        intro s hs
        obtain ⟨p, hp, rfl⟩ := List.mem_map.1 hs
        obtain ⟨a1, a2⟩ := h2 p hp
        exact ⟨a1, (getColor_none hI.inv.1 a1).1 a2⟩) with ⟨b', e', _⟩ | ⟨_, h'⟩
      · rw [e']; exact ⟨_, rfl⟩
      · rw [List.length_map] at h'; omega
    rw [Le.eq_of_total (Game.putHandicap_le ..) ht]; exact e

theorem Reach.debug (h : Reach false n m g) (hm : m ≤ 65535) : Reach true n m g := by
  induction h with
  | fresh h => exact .fresh (h.debug hm)
  | play _ hp he e ih =>
    have ih := ih (by omega)
    refine .play ih hp he ?_
    obtain ⟨r, e', _⟩ := (ih.play_spec hp he).total (by omega)
    rw [Le.eq_of_total (Game.play_le ..) ⟨r, e'⟩]; exact e
  | pass _ e ih => exact .pass (ih hm) e
  | resign _ e ih => exact .resign (ih hm) e
  | resume _ ih => exact .resume (ih hm)
  | setKomi _ ih => exact .setKomi (ih hm)

theorem Legal.debug (h : Legal false n m g) (hm : m ≤ 65535) : Legal true n m g := by
  induction h with
  | fresh h hd => exact .fresh (h.debug hm) hd
  | @tryPlay m g mv e g' _ hp e1 ih =>
    have ih := ih (by omega)
    refine .tryPlay ih hp (e := e) ?_
    obtain ⟨o, s, m', hm', hps, hs⟩ := ih.sim
    obtain ⟨r, e', _⟩ := (hs.tryPlay_any mv hp hps).total (fun hf => by have := hs.full hf; omega)
    rw [Le.eq_of_total (Game.tryPlay_le ..) ⟨r, e'⟩]; exact e1
  | resume _ ih => exact .resume (ih hm)
  | setKomi _ ih => exact .setKomi (ih hm)

/-- **C63**. The games that can be reached, and those that can be reached with `try_play`, are the same in the two builds. -/
theorem C63_same_games (hm : m ≤ 65535) : (Reach true n m g ↔ Reach false n m g) ∧ (Legal true n m g ↔ Legal false n m g) :=
  ⟨⟨Reach.release, fun h => h.debug hm⟩, ⟨Legal.release, fun h => h.debug hm⟩⟩

/-- **C63**. On a legal game the two builds give the same answers and the same game, whatever the calls. -/
theorem C63_same_runs {dbg : Bool} (h : Legal dbg n m g) {cs : List GOp} (hcs : ∀ c ∈ cs, c.OnBoard n) (hm : m + cs.length ≤ 65535) :
    g.run true cs = g.run false cs := by
  have h : Legal true n m g := by
    cases dbg
    · exact h.debug (by omega)
    · exact h
  obtain ⟨o, s, m', hm', hps, hs⟩ := h.sim
  exact Le.eq_of_total (Game.run_le cs g) (Sim.run_total cs hs hps hcs (by omega))

/-- Non-vacuity of C63: a game with captures and a refused retake, in both builds. -/
example : okAnd (do
    let g0 ← Game.new (.custom 2 2) CHINESE
    let a ← g0.run true (exPrefix ++ exCycle)
    let b ← g0.run false (exPrefix ++ exCycle)
    .ok (a, b)) (fun r => decide (r.1 = r.2) && r.1.1.any (fun e => decide (e = some .ko)) && decide (r.1.2.prisoners ≠ (0, 0))) = true := by
  decide +kernel

/-- **C63**, the converse is not claimed: a stone beside the board is refused by the debug assertions of `push` and accepted, on
another point, by a release build (see C40). -/
theorem C63_converse_false : ∃ b b', Board true 3 0 b ∧ b.push true (0, 4) .black = panic ∧ b.push false (0, 4) .black = .ok b' ∧
    b'.getColor (1, 1) = .ok (some .black) := by
  have key : okAnd (do
      let b ← Goban.new (3, 3)
      let b' ← b.push false (0, 4) .black
      .ok (b, b')) (fun r => decide (r.1.push true (0, 4) .black = panic) && decide (r.2.getColor (1, 1) = .ok (some .black))) = true := by
    decide +kernel
  obtain ⟨r, e, hc⟩ := okAnd_iff.1 key
  obtain ⟨b, e0, e⟩ := bind_eq_ok e
  obtain ⟨b', e1, e⟩ := bind_eq_ok e
  cases e
  simp only [Bool.and_eq_true, decide_eq_true_eq] at hc
  exact ⟨b, b', .new (by decide) e0, hc.1, e1, hc.2⟩

end Model
