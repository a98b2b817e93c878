import Verif.Proofs.Anywhere
import Verif.Props.Alias
import Verif.Proofs.Groups
/-!
# Questions about any pair of bytes, exactly: C97
-/

namespace Model
open Spec (OnBoard Adj Linked SameOn Pos Beside Overflows landsOn cornersFrom EyeFrom OneLiberty SuicideFrom)

variable {dbg : Bool} {n : Dim} {m : Nat} {g : Game} {x y : Nat}

/-- **C97**, `get_color`. The pair is turned into `x * height + y`: past the table of 361 cells the call panics; if that is the index of
a point of the board the answer is the colour of that point; otherwise the answer is "empty". -/
theorem C97_colour {g : Goban} (h : Board dbg n m g) (x y : Nat) :
    (361 ≤ x * n.h + y → g.getColor (x, y) = panic) ∧
    (∀ q, OnBoard n q → x * n.h + y = q.1 * n.h + q.2 → g.getColor (x, y) = g.getColor q) ∧
    (x * n.h + y < 361 → (∀ q, OnBoard n q → x * n.h + y ≠ q.1 * n.h + q.2) → g.getColor (x, y) = .ok none) := by
  obtain ⟨h1, h2, h3⟩ := getColor_from (p := (x, y)) h.inv.1
  exact ⟨h1, fun q hq e => by rw [h2 q hq e, h.inv.1.getColor_view hq], h3⟩

/-- **C97**, the neighbour queries. Unless a coordinate is 255 in a debug build, they list the points of the board beside the pair, each
once; "beside" counts bytes, so that 0 follows 255. -/
theorem C97_neighbours {g : Goban} (h : Board dbg n m g) (hx : x < 256) (hy : y < 256) (ho : ¬ Overflows dbg (x, y)) :
    ∃ l : List Coord, l.Nodup ∧ (∀ q, q ∈ l ↔ OnBoard n q ∧ Beside (x, y) q) ∧
      g.connectedPoints dbg (x, y) = .ok (l.map (fun q => { coord := q, color := g.view q })) ∧
      g.connectedStones dbg (x, y) = .ok (l.filterMap (fun q => (g.view q).map (fun c => { coord := q, color := c }))) ∧
      g.getLiberties dbg (x, y) = .ok (l.filter (fun q => (g.view q).isNone)) ∧
      g.hasLiberties dbg (x, y) = .ok (l.any (fun q => (g.view q).isNone)) := by
  have hI := h.inv.1
  exact ⟨_, adjFrom_nodup hx hy, fun q => mem_adjFrom hI.good hx hy, connectedPoints_from hI hx hy ho,
    connectedStones_from hI hx hy ho, getLiberties_from hI hx hy ho, hasLiberties_from hI hx hy ho⟩

/-- **C97**, the other case: they all panic. -/
theorem C97_overflow {g : Goban} (hx : x < 256) (ho : Overflows dbg (x, y)) :
    g.connectedPoints dbg (x, y) = panic ∧ g.connectedStones dbg (x, y) = panic ∧ g.getLiberties dbg (x, y) = panic ∧
    g.hasLiberties dbg (x, y) = panic := by
  have key : g.neighborsCoords dbg (x, y) = panic := by
    unfold Goban.neighborsCoords validCoords
    rw [neighborCoords_overflows hx ho]
    rfl
  have h1 : g.connectedPoints dbg (x, y) = panic := by
    unfold Goban.connectedPoints; rw [key]; rfl
  have h2 : g.getLiberties dbg (x, y) = panic := by
    unfold Goban.getLiberties; rw [key]; rfl
  refine ⟨h1, ?_, h2, ?_⟩
  · unfold Goban.connectedStones; rw [h1]; rfl
  · exact Goban.hasLiberties_panic key

/-- For a point of the board "beside" is adjacency, and no step overflows; the pair lands on itself. -/
theorem C97_on_board {p q : Coord} (hn : n.Fits) (h19 : n.h ≤ 19) (hp : OnBoard n p) (hq : OnBoard n q) :
    (Beside p q ↔ Adj p q) ∧ ¬ Overflows dbg p ∧ landsOn n p = p := by
  have hg : n.Good := ⟨hn, h19, by
    have := Nat.le_of_dvd (show 0 < n.h from Nat.lt_of_le_of_lt (Nat.zero_le _) hp.1) hn
    omega⟩
  have h1 := hp.1
  have h2 := hp.2
  have h3 := onBoard_w19 hg hp
  have h4 := hg.w_le (by omega)
  refine ⟨beside_iff_adj hg hp hq, ?_, ?_⟩
  · unfold Overflows; omega
  · unfold landsOn
    have e1 : (p.1 * n.h + p.2) / n.h = p.1 := by
      rw [Nat.mul_comm, Nat.mul_add_div (by omega), Nat.div_eq_of_lt (by omega)]; omega
    have e2 : (p.1 * n.h + p.2) % n.w = p.2 := by
      obtain ⟨d, hd⟩ := hn
      rw [hd, ← Nat.mul_assoc, Nat.mul_right_comm, Nat.mul_comm _ n.w, Nat.mul_add_mod, Nat.mod_eq_of_lt h2]
    rw [e1, e2, Nat.mod_eq_of_lt (by omega)]

/-- **C97**, the groups beside a pair. `get_connected_groups_idx` turns the pair into an index and the index back into a pair; it lists,
each once, the groups of the stones beside that second pair, and panics when a coordinate of it is 255 in a debug build. On a board
without points it always panics. -/
theorem C97_groups {g : Goban} (h : Board dbg n m g) (p : Coord) :
    (n.h = 0 → g.connectedGroupsIdx dbg (twoTo1dim g.size p) = panic) ∧
    (0 < n.h → Overflows dbg (landsOn n p) → g.connectedGroupsIdx dbg (twoTo1dim g.size p) = panic) ∧
    (0 < n.h → ¬ Overflows dbg (landsOn n p) → ∃ ks, g.connectedGroupsIdx dbg (twoTo1dim g.size p) = .ok ks ∧ ks.Nodup ∧
      ∀ k, k ∈ ks ↔ ∃ l s, g.chainStonesIdx dbg k = .ok l ∧ s ∈ l ∧ Beside (landsOn n p) s.coord) := by
  have hI := h.inv.1
  refine ⟨fun h0 => ?_, fun hw ho => ?_, fun hw ho => ?_⟩
  · unfold Goban.connectedGroupsIdx Goban.neighborsIdx oneTo2dim
    rw [hI.size]
    rw [if_pos (Or.inl (show n.sz.1 = 0 from h0))]
    rfl
  · unfold Goban.connectedGroupsIdx
    rw [neighborsIdx_overflows hI.size hw hI.good ho]
    rfl
  · obtain ⟨⟨ks, e, hnd, hks⟩, _⟩ := connectedGroups_from (dbg := dbg) hI hw ho
    refine ⟨ks, e, hnd, fun k => ?_⟩
    rw [hks]
    constructor
    · rintro ⟨q, hq, ha, hb⟩
      obtain ⟨grp, hg⟩ := hI.rep.live _ _ hb
      obtain ⟨l, hs⟩ := group_spec (dbg := dbg) hI hg
      obtain ⟨s, h1, h2⟩ := List.mem_map.1 ((hs.mem q).2 ⟨hq, hb⟩)
      exact ⟨l, s, hs.stones, h1, by rw [h2]; exact ha⟩
    · rintro ⟨l, s, e', hsl, ha⟩
      have : ∃ grp, g.chains.chainAt k = .ok grp := by
        unfold Goban.chainStonesIdx at e'
        obtain ⟨grp', e1, _⟩ := bind_eq_ok e'
        exact ⟨grp', e1⟩
      obtain ⟨grp, hg⟩ := this
      obtain ⟨l2, hs⟩ := group_spec (dbg := dbg) hI (live_ch.1 hg)
      rw [hs.stones] at e'; cases e'
      obtain ⟨h1, _, h3⟩ := hs.view hI (live_ch.1 hg) hsl
      exact ⟨_, h1, ha, h3⟩

/-- **C97**, `will_capture`: true iff a group of the opponent with exactly one liberty has a stone beside the pair the index gives. -/
theorem C97_will_capture (h : Reach dbg n m g) (hn : 0 < n.h) {p : Coord} (ho : ¬ Overflows dbg (landsOn n p)) :
    ∃ b, g.willCapture dbg p = .ok b ∧ (b = true ↔ ∃ q, OnBoard n q ∧ Beside (landsOn n p) q ∧
      g.goban.getColor q = .ok (some g.turn.opp) ∧ OneLiberty n g.goban.view q) := by
  obtain ⟨b, e, hb⟩ := willCapture_from (dbg := dbg) h.inv hn ho
  refine ⟨b, e, hb.trans (exists_congr fun q => and_congr_right fun hq => ?_)⟩
  rw [h.inv.getColor_view hq, Except.ok.injEq]

/-- **C97**, `check_suicide`: the empty neighbours are those of the pair itself, the groups those beside the pair the index gives. -/
theorem C97_check_suicide (h : Reach dbg n m g) (hn : 0 < n.h) (hx : x < 256) (hy : y < 256) (ho : ¬ Overflows dbg (x, y))
    (ho' : ¬ Overflows dbg (landsOn n (x, y))) (c : Color) :
    ∃ b, g.checkSuicide dbg { coord := (x, y), color := c } = .ok b ∧ (b = true ↔ SuicideFrom n g.goban.view c (x, y)) :=
  checkSuicide_from h.inv hn hx hy ho ho'

/-- **C97**, `check_eye`: past the table it panics, at an occupied cell it is false, and at an empty one it makes the eye test with the
points beside the pair and diagonally next to it. -/
theorem C97_check_eye (h : Reach dbg n m g) (hx : x < 256) (hy : y < 256) (c : Color) :
    (361 ≤ x * n.h + y → g.checkEye dbg { coord := (x, y), color := c } = panic) ∧
    (∀ d, g.goban.getColor (x, y) = .ok (some d) → g.checkEye dbg { coord := (x, y), color := c } = .ok false) ∧
    (g.goban.getColor (x, y) = .ok none → Overflows dbg (x, y) → g.checkEye dbg { coord := (x, y), color := c } = panic) ∧
    (g.goban.getColor (x, y) = .ok none → ¬ Overflows dbg (x, y) →
      ∃ b, g.checkEye dbg { coord := (x, y), color := c } = .ok b ∧ (b = true ↔ EyeFrom n g.goban.view c (x, y))) := by
  refine ⟨fun hi => ?_, fun d hd => ?_, fun he ho => ?_, fun he ho => checkEye_from h.inv hx hy ho he⟩
  · unfold Game.checkEye
    dsimp only
    rw [(getColor_from (p := (x, y)) h.inv).1 hi]
    rfl
  · unfold Game.checkEye
    dsimp only
    rw [hd]
    rfl
  · unfold Game.checkEye
    dsimp only
    rw [he, ok_bind, if_neg (by simp), Goban.anyConnectedPoint_panic (by
      unfold Goban.neighborsCoords validCoords
      rw [neighborCoords_overflows hx ho]
      rfl)]
    rfl

/-- **C97**: far enough from the board every empty cell passes for an eye of both players. -/
theorem C97_far_eye (h : Reach dbg n m g) (hx : x < 255) (hy : y < 255) (hf : n.h < x ∨ n.w < y)
    (he : g.goban.getColor (x, y) = .ok none) (c : Color) : g.checkEye dbg { coord := (x, y), color := c } = .ok true := by
  have h19 := h.inv.good.h19
  have w19 := h.inv.good.w19
  have hno : ¬ Overflows dbg (x, y) := by unfold Overflows; simp only; omega
  obtain ⟨b, e, hb⟩ := (C97_check_eye h (by omega) (by omega) c).2.2.2 he hno
  rw [e, hb.2]
  have hc : cornersFrom n (x, y) = [] := by
    unfold cornersFrom
    rw [List.filter_eq_nil_iff]
    intro q hq
    rw [decide_eq_true_eq]
    intro hon
    have a := hon.1
    have b := hon.2
    simp only [List.mem_cons, List.not_mem_nil, or_false] at hq
    rcases hq with rfl | rfl | rfl | rfl <;> simp only at a b <;> omega
  refine ⟨fun q hq hbs => ?_, Or.inl ?_⟩
  · have a := hq.1
    have b := hq.2
    unfold Beside Spec.Next at hbs
    simp only at hbs
    omega
  · unfold Spec.openCorners
    rw [hc]; rfl

/-- **C97**, `check_ko`: no pair outside the board is ever a ko. -/
theorem C97_check_ko (h : Legal dbg n m g) {p : Coord} (hp : ¬ OnBoard n p) (c : Color) :
    g.checkKo dbg { coord := p, color := c } = .ok false := by
  obtain ⟨_, s, _, _, _, hs⟩ := h.sim
  unfold Game.checkKo
  dsimp only
  rw [if_neg]
  intro hk
  obtain ⟨_, _, hb, _⟩ := (hs.ko p).1 hk
  exact hp hb

/-- **C97**, `check_point_by` outside the board, without super-ko: the first of the tests above that applies. -/
theorem C97_check_point (h : Legal dbg n m g) (hn : 0 < n.h) (hx : x < 256) (hy : y < 256) (hp : ¬ OnBoard n (x, y))
    (ho : ¬ Overflows dbg (x, y)) (ho' : ¬ Overflows dbg (landsOn n (x, y))) {r : IllegalRules} (hr : r.superko = false) :
    (361 ≤ x * n.h + y → g.checkPointBy dbg (x, y) r = panic) ∧
    (∀ c, g.goban.getColor (x, y) = .ok (some c) → g.checkPointBy dbg (x, y) r = .ok (some .pointNotEmpty)) ∧
    (g.goban.getColor (x, y) = .ok none →
      (r.suicide = true → SuicideFrom n g.goban.view g.turn (x, y) → g.checkPointBy dbg (x, y) r = .ok (some .suicide)) ∧
      ((r.suicide = true → ¬ SuicideFrom n g.goban.view g.turn (x, y)) →
        (r.fillEye = true → EyeFrom n g.goban.view g.turn (x, y) → g.checkPointBy dbg (x, y) r = .ok (some .fillEye)) ∧
        ((r.fillEye = true → ¬ EyeFrom n g.goban.view g.turn (x, y)) → g.checkPointBy dbg (x, y) r = .ok none))) := by
  obtain ⟨_, _, hre⟩ := h.reach
  have hI := hre.inv
  refine ⟨fun hi => ?_, fun c hc => ?_, fun he => ?_⟩
  · unfold Game.checkPointBy
    dsimp only
    rw [(getColor_from (p := (x, y)) hI).1 hi]
    rfl
  · unfold Game.checkPointBy
    dsimp only
    rw [hc]
    rfl
  · obtain ⟨b1, e1, h1⟩ := checkSuicide_from (dbg := dbg) (c := g.turn) hI hn hx hy ho ho'
    obtain ⟨b2, e2, h2⟩ := checkEye_from (dbg := dbg) (c := g.turn) hI hx hy ho he
    have key : g.checkPointBy dbg (x, y) r = .ok (if (r.suicide && b1) = true then some .suicide
        else if (r.fillEye && b2) = true then some .fillEye else none) := by
      unfold Game.checkPointBy
      dsimp only
      rw [he, e1, e2, C97_check_ko h hp, hr]
      cases r.suicide <;> cases r.ko <;> cases r.fillEye <;> cases b1 <;> cases b2 <;> rfl
    rw [key, ← h1, ← h2]
    cases r.suicide <;> cases r.fillEye <;> cases b1 <;> cases b2 <;> simp

/-- One black stone on (0, 0) of a 3 × 3 board. In a release build (0, 255) and (255, 0) are beside it; in a debug build the same
questions panic; (3, 3) is beside nothing. -/
theorem C97_example : (∃ g, Board false 3 1 g ∧ (
      g.connectedStones false (0, 255) = .ok [{ coord := (0, 0), color := .black }] ∧
      g.connectedStones false (255, 0) = .ok [{ coord := (0, 0), color := .black }] ∧
      g.getLiberties false (2, 255) = .ok [(2, 0)] ∧ g.connectedPoints false (3, 3) = .ok [] : Bool) = true) ∧
    ∃ g, Board true 3 1 g ∧ (g.connectedStones true (0, 255) = panic ∧ g.connectedPoints true (3, 3) = .ok [] ∧
      g.connectedStones true (0, 3) = .ok [] ∧ g.getColor (0, 3) = .ok none : Bool) = true :=
  ⟨mkBoard_exists (l := [.push 0 0 .black]) (by decide +kernel), mkBoard_exists (l := [.push 0 0 .black]) (by decide +kernel)⟩

/-- After Black (0, 0) on a 3 × 3 board: (0, 4), which would be played on the empty centre, is refused as suicide, having no point
of the board beside it; where suicide is allowed but filling eyes is not it is refused as an eye; (0, 3) is accepted. -/
example : ∃ g, Legal true 3 1 g ∧ (g.goban.getColor (0, 4) = .ok none ∧ g.checkEye true { coord := (0, 4), color := .white } = .ok true ∧
    g.checkEye true { coord := (0, 3), color := .white } = .ok false ∧
    g.checkSuicide true { coord := (0, 4), color := .white } = .ok true ∧ g.willCapture true (0, 4) = .ok false ∧
    g.checkPointBy true (0, 4) { ko := true, superko := false, suicide := true, fillEye := false } = .ok (some .suicide) ∧
    g.checkPointBy true (0, 4) { ko := true, superko := false, suicide := false, fillEye := true } = .ok (some .fillEye) ∧
    g.checkPointBy true (0, 3) { ko := true, superko := false, suicide := true, fillEye := true } = .ok none : Bool) = true :=
  mkGame_exists (rule := CHINESE) (l := [.try_ (.play 0 0)]) (by decide) (by decide +kernel)

end Model
