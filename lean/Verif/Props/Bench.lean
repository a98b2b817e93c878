import Verif.Model.Bench
import Verif.Props.DeadStones
import Verif.Props.Queries
import Verif.Props.Builder
import Verif.Props.Reachable
import Verif.Props.SuperKo
/-!
# The programs shipped with the crate: C73 (perft), C74 (room on the board and the example program), C75 (play-out policies)
-/

namespace Model
open Spec (OnBoard Adj Linked HasLiberty NoDead place SameOn Pos Suicide State removeDead)

variable {dbg : Bool} {m : Nat} {g : Game}

/-! ## C73 -/

/-- A number computed in `u64`: as it is if it fits; otherwise a panic in a debug build, its remainder in a release build. -/
def inU64 (dbg : Bool) (x : Nat) : M Nat := if x < 2 ^ 64 then .ok x else if dbg then panic else .ok (x % 2 ^ 64)

theorem sumU64_ok {α} {f : α → M Nat} {c : α → Nat} : ∀ (l : List α) (acc : Nat), (∀ a ∈ l, f a = inU64 dbg (c a)) →
    acc < 2 ^ 64 → sumU64 dbg f acc l = inU64 dbg (acc + (l.map c).sum)
  | [], acc, _, ha => by
    unfold sumU64 inU64
    rw [if_pos (by simpa using ha)]; simp
  | a :: l, acc, h, ha => by
    unfold sumU64
    rw [h a (by simp), List.map_cons, List.sum_cons]
    have ih := fun acc => sumU64_ok (f := f) (c := c) l acc (fun x hx => h x (by simp [hx]))
    unfold inU64 addU64 at *
    by_cases h1 : c a < 2 ^ 64
    · rw [if_pos h1, ok_bind]
      by_cases h2 : acc + c a < 2 ^ 64
      · rw [if_pos h2, ok_bind, ih _ h2, Nat.add_assoc]
      · rw [if_neg h2, if_neg (show ¬ acc + (c a + (l.map c).sum) < 2 ^ 64 by omega)]
        cases dbg with
        | true => rfl
        | false =>
          simp only [Bool.false_eq_true, if_false, ok_bind]
          rw [ih _ (Nat.mod_lt _ (by decide))]
          have : (acc + c a) % 2 ^ 64 + (l.map c).sum < 2 ^ 64 ∨ ¬ (acc + c a) % 2 ^ 64 + (l.map c).sum < 2 ^ 64 := by omega
          rcases this with h3 | h3
          · rw [if_pos h3]; congr 1; omega
          · rw [if_neg h3]; simp only [Bool.false_eq_true, if_false]; congr 1; omega
    · rw [if_neg h1, if_neg (show ¬ acc + (c a + (l.map c).sum) < 2 ^ 64 by omega)]
      cases dbg with
      | true => rfl
      | false =>
        simp only [Bool.false_eq_true, if_false, ok_bind]
        have e1 : (if acc + c a % 2 ^ 64 < 2 ^ 64 then (.ok (acc + c a % 2 ^ 64) : M Nat)
            else .ok ((acc + c a % 2 ^ 64) % 2 ^ 64)) = .ok ((acc + c a) % 2 ^ 64) := by
          split
          · congr 1; omega
          · congr 1; omega
        rw [e1, ok_bind, ih _ (Nat.mod_lt _ (by decide))]
        split
        · congr 1; omega
        · simp only [Bool.false_eq_true, if_false]; congr 1; omega

/-- All sequences of `d` entries of a list of points. -/
def sequences (P : List Spec.Pt) : Nat → List (List Spec.Pt)
  | 0 => [[]]
  | d + 1 => P.flatMap (fun p => (sequences P d).map (p :: ·))

/-- Every one of the `try_play` calls on these points, one after the other, is accepted. -/
def Game.AcceptsAll (dbg : Bool) (g : Game) (ps : List Coord) : Prop :=
  ∃ es g', g.run dbg (ps.map (fun p => .try_ (.play p.1 p.2))) = .ok (es, g') ∧ ∀ e ∈ es, e = none

open Classical in
/-- How many sequences of `d` entries of a list of points `try_play` accepts from start to end. -/
noncomputable def countFrom (dbg : Bool) (P : List Spec.Pt) (g : Game) (d : Nat) : Nat :=
  ((sequences P d).filter (fun ps => decide (g.AcceptsAll dbg ps))).length

/-- How many sequences of `d` points of the board `try_play` accepts from start to end. -/
noncomputable def countGames (dbg : Bool) (n : Dim) (g : Game) (d : Nat) : Nat := countFrom dbg (Spec.points n) g d

theorem acceptsAll_cons {p : Coord} {ps : List Coord} : g.AcceptsAll dbg (p :: ps) ↔
    ∃ g', g.tryPlay dbg (.play p.1 p.2) = .ok (none, g') ∧ g'.AcceptsAll dbg ps := by
  constructor
  · rintro ⟨es, g2, e, h⟩
    rw [List.map_cons] at e
    unfold Game.run at e
    obtain ⟨⟨r, g1⟩, e1, e⟩ := bind_eq_ok e
    obtain ⟨rs, e2, e⟩ := bind_eq_ok e
    cases e
    have : r = none := h r (by simp)
    subst this
    exact ⟨g1, e1, rs.1, rs.2, e2, fun x hx => h x (by simp [hx])⟩
  · rintro ⟨g1, e1, es, g2, e2, h⟩
    refine ⟨none :: es, g2, ?_, by simpa using h⟩
    rw [List.map_cons]
    unfold Game.run
    rw [show g.call dbg (.try_ (.play p.1 p.2)) = _ from e1, ok_bind]
    dsimp only
    rw [e2, ok_bind]

theorem length_filter_flatMap {α β} (l : List α) (f : α → List β) (P : β → Bool) :
    ((l.flatMap f).filter P).length = (l.map (fun a => ((f a).filter P).length)).sum := by
  induction l with
  | nil => rfl
  | cons a l ih => rw [List.flatMap_cons, List.filter_append, List.length_append, ih, List.map_cons, List.sum_cons]

theorem sum_map_filter {α} (l : List α) (P : α → Bool) (f : α → Nat) (h : ∀ a ∈ l, P a = false → f a = 0) :
    (l.map f).sum = ((l.filter P).map f).sum := by
  induction l with
  | nil => rfl
  | cons a l ih =>
    have ih := ih (fun x hx => h x (by simp [hx]))
    rw [List.map_cons, List.sum_cons, List.filter_cons]
    cases hP : P a with
    | true => rw [if_pos rfl, List.map_cons, List.sum_cons, ih]
    | false => rw [if_neg (by simp), h a (by simp) hP, ih, Nat.zero_add]

open Classical in
/-- The game after an accepted play. -/
noncomputable def Game.child (dbg : Bool) (g : Game) (p : Coord) : Game :=
  if h : g.Accepts dbg p then h.choose else g

theorem child_eq {p : Coord} {g' : Game} (e : g.tryPlay dbg (.play p.1 p.2) = .ok (none, g')) : g.child dbg p = g' := by
  have h : g.Accepts dbg p := ⟨g', e⟩
  unfold Game.child
  rw [dif_pos h]
  have h2 := e.symm.trans h.choose_spec
  exact (congrArg Prod.snd (Except.ok.inj h2)).symm

open Classical in
theorem countFrom_succ {P : List Spec.Pt} (d : Nat) : countFrom dbg P g (d + 1) =
    ((P.filter (fun p => decide (g.Accepts dbg p))).map (fun p => countFrom dbg P (g.child dbg p) d)).sum := by
  show ((P.flatMap (fun p => (sequences P d).map (p :: ·))).filter _).length = _
  rw [length_filter_flatMap]
  have key : ∀ p, (((sequences P d).map (p :: ·)).filter (fun ps => decide (g.AcceptsAll dbg ps))).length =
      if g.Accepts dbg p then countFrom dbg P (g.child dbg p) d else 0 := by
    intro p
    rw [List.filter_map, List.length_map]
    by_cases h : g.Accepts dbg p
    · rw [if_pos h]
      unfold countFrom
      congr 1
      apply filter_congr'
      intro ps _
      obtain ⟨g', e⟩ := h
      rw [Function.comp, Bool.eq_iff_iff, decide_eq_true_eq, decide_eq_true_eq, acceptsAll_cons, child_eq e]
      constructor
      · rintro ⟨g2, e2, h2⟩
        rw [e] at e2; cases e2; exact h2
      · intro h2; exact ⟨g', e, h2⟩
    · rw [if_neg h, List.length_eq_zero_iff, List.filter_eq_nil_iff]
      intro ps _
      rw [Function.comp, decide_eq_true_eq, acceptsAll_cons]
      rintro ⟨g', e, _⟩
      exact h ⟨g', e⟩
  rw [sum_map_filter _ (fun p => decide (g.Accepts dbg p))]
  · congr 1
    apply List.map_congr_left
    intro p hp
    rw [key, if_pos (by simpa using (List.mem_filter.1 hp).2)]
  · intro p _ hp
    rw [key, if_neg (by simpa using hp)]

theorem countFrom_zero {P : List Spec.Pt} : countFrom dbg P g 0 = 1 := by
  have : g.AcceptsAll dbg [] := ⟨[], g, rfl, by simp⟩
  unfold countFrom sequences
  rw [List.filter_cons, if_pos (by simpa using this)]
  rfl

open Classical in
theorem countGames_succ {n : Dim} (d : Nat) : countGames dbg n g (d + 1) =
    (((Spec.points n).filter (fun p => decide (g.Accepts dbg p))).map (fun p => countGames dbg n (g.child dbg p) d)).sum :=
  countFrom_succ d

theorem countGames_zero {n : Dim} : countGames dbg n g 0 = 1 := countFrom_zero

open Classical in
/-- `perft` on any board: the sequences are counted with the repetitions of the listing. -/
theorem perft_scan {n : Dim} : ∀ (d : Nat) {m : Nat} {g : Game}, Legal dbg n m g → g.passes ≠ 2 → m + d ≤ 65535 →
    Game.perft dbg d g = inU64 dbg (countFrom dbg (Spec.scan n) g d)
  | 0, m, g, _, _, _ => by
    rw [countFrom_zero]; rfl
  | 1, m, g, h, hps, hm => by
    obtain ⟨m1, hm1, hr⟩ := h.reach
    have e := C91_legals hr hps (by omega)
    unfold Game.perft
    rw [e, ok_bind, countFrom_succ]
    have hsum : (((Spec.scan n).filter (fun p => decide (g.Accepts dbg p))).map
        (fun p => countFrom dbg (Spec.scan n) (g.child dbg p) 0)).sum =
        ((Spec.scan n).filter (fun p => decide (g.Accepts dbg p))).length := by
      rw [List.map_congr_left (g := fun _ => 1) (fun p _ => countFrom_zero)]
      simp
    rw [hsum]
    unfold inU64
    have h1 : (Spec.scan n).length = n.w * n.h := by
      unfold Spec.scan
      simp
    have h2 := List.length_filter_le (fun p => decide (g.Accepts dbg p)) (Spec.scan n)
    have h3 := hr.inv.good.area_le
    unfold Dim.area at h3
    rw [Nat.mul_comm] at h3
    rw [if_pos (by omega)]
  | d + 2, m, g, h, hps, hm => by
    obtain ⟨m1, hm1, hr⟩ := h.reach
    have e := C91_legals hr hps (by omega)
    unfold Game.perft
    rw [e, ok_bind, countFrom_succ, sumU64_ok (c := fun p => countFrom dbg (Spec.scan n) (g.child dbg p) (d + 1)), Nat.zero_add]
    · intro p hp
      rw [List.mem_filter, decide_eq_true_eq] at hp
      obtain ⟨hp, g', e'⟩ := hp
      have e2 := C13_accepted_is_play e'
      rw [e2, ok_bind, child_eq e']
      exact perft_scan (d + 1) (h.tryPlay (mv := .play p.1 p.2) ((mem_scan hr.inv.good).1 hp).1 e')
        (by rw [(C16_play e2).2]; decide) (by omega)
    · decide

theorem scan_square (n : Nat) : Spec.scan n = Spec.points n := by
  unfold Spec.scan Spec.points
  apply flatMap_congr'
  intro x _
  apply List.map_congr_left
  intro j hj
  rw [Nat.mod_eq_of_lt (List.mem_range.1 hj)]

/-- **C73**. In a legal game that is not paused, `perft(game, d)` is the number of sequences of `d` on-board points that
`try_play` accepts from start to end, computed in `u64`. -/
theorem C73_perft {n : Nat} (d : Nat) {m : Nat} {g : Game} (h : Legal dbg n m g) (hps : g.passes ≠ 2) (hm : m + d ≤ 65535) :
    Game.perft dbg d g = inU64 dbg (countGames dbg n g d) := by
  rw [perft_scan d h hps hm, scan_square]
  rfl

/-- The points of the first `w` rows. -/
def _root_.Spec.topRows (n : Dim) : List Spec.Pt := (Spec.points n).filter (fun p => decide (p.1 < n.w))

theorem scan_perm {n : Dim} (hn : n.Good) : (Spec.scan n).Perm (List.replicate (n.h / n.w) (Spec.topRows n)).flatten := by
  rw [List.perm_iff_count]
  intro p
  rw [count_scan hn]
  have key : ∀ k, (List.replicate k (Spec.topRows n)).flatten.count p = k * (Spec.topRows n).count p := by
    intro k
    induction k with
    | zero => simp
    | succ k ih => rw [List.replicate_succ, List.flatten_cons, List.count_append, ih, Nat.succ_mul, Nat.add_comm]
  rw [key]
  have hnd : (Spec.topRows n).Nodup := (points_nodup n).sublist List.filter_sublist
  have hmem : p ∈ Spec.topRows n ↔ OnBoard n p ∧ p.1 < n.w := by
    unfold Spec.topRows
    rw [List.mem_filter, mem_points, decide_eq_true_eq]
  by_cases hp : p ∈ Spec.topRows n
  · rw [if_pos (hmem.1 hp), hnd.count, if_pos hp, Nat.mul_one]
  · rw [if_neg (fun h => hp (hmem.2 h)), List.count_eq_zero_of_not_mem hp, Nat.mul_zero]

theorem sum_flatten_replicate {α} (P : α → Bool) (f : α → Nat) (l : List α) : ∀ k : Nat,
    (((List.replicate k l).flatten.filter P).map f).sum = k * ((l.filter P).map f).sum
  | 0 => by simp
  | k + 1 => by
    rw [List.replicate_succ, List.flatten_cons, List.filter_append, List.map_append, List.sum_append_nat,
      sum_flatten_replicate P f l k, Nat.succ_mul, Nat.add_comm]

theorem countFrom_scan {n : Dim} (hn : n.Good) : ∀ (d : Nat) (g : Game), countFrom dbg (Spec.scan n) g d =
    (n.h / n.w) ^ d * countFrom dbg (Spec.topRows n) g d
  | 0, g => by rw [countFrom_zero, countFrom_zero]; rfl
  | d + 1, g => by
    rw [countFrom_succ, countFrom_succ, (((scan_perm hn).filter _).map _).sum_nat, sum_flatten_replicate]
    have : ∀ l : List Coord, (l.map (fun p => countFrom dbg (Spec.scan n) (g.child dbg p) d)).sum =
        (n.h / n.w) ^ d * (l.map (fun p => countFrom dbg (Spec.topRows n) (g.child dbg p) d)).sum := by
      intro l
      induction l with
      | nil => simp
      | cons p l ih => rw [List.map_cons, List.sum_cons, List.map_cons, List.sum_cons, ih, Nat.mul_add, countFrom_scan hn d]
    rw [this, Nat.pow_succ, ← Nat.mul_assoc, Nat.mul_comm (n.h / n.w)]

/-- **C91**, `perft(game, d)`: the number of sequences of `d` points of the first `w` rows that `try_play` accepts from start to end,
times `(h / w) ^ d`, computed in `u64`. -/
theorem C91_perft {n : Dim} (d : Nat) {m : Nat} {g : Game} (h : Legal dbg n m g) (hps : g.passes ≠ 2) (hm : m + d ≤ 65535) :
    Game.perft dbg d g = inU64 dbg ((n.h / n.w) ^ d * countFrom dbg (Spec.topRows n) g d) := by
  obtain ⟨_, _, hr⟩ := h.reach
  rw [perft_scan d h hps hm, countFrom_scan hr.inv.good]

/-- On the 4 × 2 board after one stone: three points open in the first two rows, each listed twice. -/
example : ∃ g, Legal true ⟨4, 2⟩ 1 g ∧ (g.passes ≠ 2 ∧ Game.perft true 1 g = .ok 6 : Bool) = true :=
  mkGame_exists (n := ⟨4, 2⟩) (rule := JAPANESE) (l := [.try_ (.play 0 0)]) (by decide) (by decide +kernel)

/-- In the middle of a 3 × 3 game under the Japanese rule: five legal points, and 14 games of two plies. -/
example : ∃ g, Legal true 3 6 g ∧ (g.passes ≠ 2 ∧ Game.perft true 0 g = .ok 1 ∧ Game.perft true 1 g = .ok 5 ∧
    Game.perft true 2 g = .ok 14 : Bool) = true :=
  mkGame_exists (rule := JAPANESE) (l := [.try_ (.play 0 1), .try_ (.play 2 2), .try_ (.play 1 0), .try_ .pass,
    .try_ (.play 1 1), .try_ .pass]) (by decide) (by decide +kernel)

/-! ## C74 -/

/-- After a ko has been taken the neighbours of the ko point are occupied. -/
theorem koSeen_neighbours {n : Dim} {o : Option EndGame} {s : State} (hs : Sim dbg n m o g s) {p r : Coord}
    (hp : OnBoard n p) (hk : Spec.KoSeen n s p) (ha : Adj p r) (hr : OnBoard n r) : s.pos r ≠ none := by
  obtain ⟨⟨b, hb, hone⟩, _⟩ := hk
  obtain ⟨_, hd, mv, hmv, hbmv, hpos, _⟩ := hs.bef b hb
  obtain ⟨hbp, hpp⟩ := (hone p hp).2 rfl
  have hne : p ≠ mv := by rintro rfl; rw [hbmv] at hbp; cases hbp
  have hc : s.turn = s.turn.opp.opp := by cases s.turn <;> rfl
  have hplay : Spec.play n (!g.rule.flagIllegal.suicide) b mv s.turn.opp p = none := by rw [← hpos p hp, hpp]
  have hQp : place b mv s.turn.opp p = some s.turn := by rw [place_ne hne, hbp]
  have hAp : after n b mv s.turn.opp p = none := by
    cases hA : after n b mv s.turn.opp p with
    | none => rfl
    | some d =>
      have hd' : d = s.turn := by
        rcases removeDead_sub (n := n) (pos := place b mv s.turn.opp) (c := s.turn.opp.opp) p with h' | h'
        · unfold after at hA; rw [h'] at hA; cases hA
        · unfold after at hA; rw [h', hQp] at hA; cases hA; rfl
      exfalso
      unfold Spec.play at hplay
      have hA' : removeDead n (place b mv s.turn.opp) s.turn.opp.opp p = some d := hA
      split at hplay
      · rw [removeDead_other hA' (by rw [hd']; exact Color.ne_opp _)] at hplay; cases hplay
      · rw [hA'] at hplay; cases hplay
  have hns := not_suicide_of_capture (c := s.turn.opp) hd hmv hbmv ⟨p, hp, by rw [← hc]; exact hbp, hAp⟩
  have hsame := SameOn.trans hpos (play_eq_after _ hd hmv hbmv hns)
  have hdead : ¬ HasLiberty n (place b mv s.turn.opp) p := by
    intro hl
    unfold after removeDead at hAp
    rw [if_neg (fun h => h.2 hl), hQp] at hAp
    cases hAp
  rw [hsame r hr]
  cases hQ : place b mv s.turn.opp r with
  | none => exact absurd ⟨p, r, Linked.refl _, ha, hr, hQ⟩ hdead
  | some d =>
    by_cases hd' : d = s.turn
    · subst hd'
      exfalso
      have hrmv : r ≠ mv := by rintro rfl; rw [place_self] at hQ; exact Color.ne_opp _ (Option.some.inj hQ).symm
      have hl : Linked n (place b mv s.turn.opp) p r := Linked.step (Linked.refl _) ha hr (by rw [hQ, hQp])
      have hrd : after n b mv s.turn.opp r = none := by
        unfold after removeDead
        rw [if_pos ⟨by rw [← hc]; exact hQ, fun h => hdead ((hasLiberty_linked hp hl).2 h)⟩]
      have : r = p := (hone r hr).1 ⟨by rw [← hQ, place_ne hrmv], by rw [hsame r hr, hrd]⟩
      subst this
      unfold Adj at ha
      omega
    · have : after n b mv s.turn.opp r = some d := removeDead_other hQ (by rw [← hc]; exact hd')
      rw [this]; simp

/-- A play next to an empty point is not refused, unless for super-ko. -/
theorem Sim.quiet {n : Dim} {o : Option EndGame} {s : State} (hs : Sim dbg n m o g s) (hps : s.passes ≠ 2) {p r : Coord}
    (hp : OnBoard n p) (he : s.pos p = none) (ha : Adj p r) (hr : OnBoard n r) (hre : s.pos r = none) (f : Spec.Forbidden)
    (hq : f.superko = true → ¬ Spec.SuperKoSeen n (!f.suicide) s p) : Spec.answerSeen n f s (.play p) = .ok := by
  unfold Spec.answerSeen
  dsimp only
  rw [if_neg hps, if_neg (by simp [he]), if_neg, if_neg, if_neg, if_neg]
  · rintro ⟨h1, h2⟩; exact hq h1 h2
  · rintro ⟨_, _, h2, _⟩
    have := h2 r ha hr
    rw [hre] at this; cases this
  · rintro ⟨_, hk⟩; exact koSeen_neighbours hs hp hk ha hr hre
  · rintro ⟨_, h1⟩
    exact (suicide_local hs.noDead hp he).2 (Or.inl ⟨r, ha, hr, hre⟩) h1

/-- **C74**. In a legal game that is not paused, on a board whose width divides its height: a play on an empty point with an
empty neighbour that captures nothing is accepted under every rule; if the rule does not forbid super-ko, also one that
captures. -/
theorem C74_next_to_empty {n : Dim} (h : Legal dbg n m g) (hps : g.passes ≠ 2) (hm : m < 65535) {p r : Coord}
    (hp : OnBoard n p) (he : g.goban.getColor p = .ok none) (ha : Adj p r) (hr : OnBoard n r)
    (hre : g.goban.getColor r = .ok none)
    (hq : g.rule.flagIllegal.superko = true → ¬ Spec.Captures n g.goban.view p g.turn) : g.Accepts dbg p := by
  obtain ⟨o, s, m', hm', hps2, hs⟩ := h.sim
  have he' := (getColor_none hs.inv hp).1 he
  have hre' := (getColor_none hs.inv hr).1 hre
  rw [hs.pos p hp] at he'
  rw [hs.pos r hr] at hre'
  obtain ⟨⟨e, g'⟩, e1, h1⟩ := (hs.tryPlay_answer (dbg := dbg) (.play p.1 p.2) hp hps2).total (hs.notFull (by omega))
  have h2 : Spec.answerSeen n g.rule.flagIllegal.forbidden s (Move.play p.1 p.2).call = .ok := by
    refine hs.quiet (by rw [← hs.passes]; exact hps) hp he' ha hr hre' _ (fun h1 h2 => ?_)
    obtain ⟨q, hq1, hq2, hq3⟩ := h2.2.1
    refine hq h1 ⟨q, hq1, by rw [hs.pos q hq1, hs.turn]; exact hq2, ?_⟩
    rw [hs.turn]
    exact (removeDead_congr (place_congr hs.pos p s.turn) s.turn.opp q hq1).trans hq3
  rw [h2] at h1
  cases e with
  | none => exact ⟨g', e1⟩
  | some e => cases e <;> cases h1

/-- A board with few stones has a point that is empty together with its neighbours. -/
theorem free_point {n : Dim} {pos : Pos} (h : 5 * stoneCount n pos < n.area) :
    ∃ p, OnBoard n p ∧ pos p = none ∧ ∀ r, Adj p r → OnBoard n r → pos r = none := by
  refine Classical.byContradiction fun hno => ?_
  let S := (Spec.points n).filter (fun p => decide (pos p ≠ none))
  have hS : S.length = stoneCount n pos := by
    unfold stoneCount Spec.count
    show ((Spec.points n).filter _).length = _
    induction Spec.points n with
    | nil => rfl
    | cons a l ih =>
      simp only [List.filter_cons]
      cases hc : pos a with
      | none => simpa [hc] using ih
      | some c => cases c <;> simp at ih ⊢ <;> omega
  let N : Coord → List Coord := fun s => [s, (s.1 + 1, s.2), (s.1 - 1, s.2), (s.1, s.2 + 1), (s.1, s.2 - 1)]
  have hlen : ∀ l : List Coord, (l.flatMap N).length = 5 * l.length := by
    intro l
    induction l with
    | nil => rfl
    | cons a l ih => rw [List.flatMap_cons, List.length_append, ih]; show 5 + _ = 5 * (l.length + 1); omega
  have hsub : Spec.points n ⊆ S.flatMap N := by
    intro p hp
    have hp' := mem_points.1 hp
    rw [List.mem_flatMap]
    by_cases he : pos p = none
    · have : ∃ r, Adj p r ∧ OnBoard n r ∧ pos r ≠ none :=
        Classical.byContradiction fun h' => hno ⟨p, hp', he, fun r h1 h2 => Classical.byContradiction fun h3 => h' ⟨r, h1, h2, h3⟩⟩
      obtain ⟨r, h1, h2, h3⟩ := this
      refine ⟨r, List.mem_filter.2 ⟨mem_points.2 h2, by simpa using h3⟩, ?_⟩
      obtain ⟨a, b⟩ := p
      obtain ⟨c, d⟩ := r
      unfold Adj at h1
      simp only [N, List.mem_cons, Prod.mk.injEq, List.not_mem_nil, or_false]
      dsimp only at h1
      omega
    · exact ⟨p, List.mem_filter.2 ⟨hp, by simpa using he⟩, by simp [N]⟩
  have := (List.subperm_of_subset (points_nodup n) hsub).length_le
  rw [points_length, hlen, hS] at this
  omega

theorem exists_neighbour {n : Dim} (h2 : 2 ≤ n.area) {p : Coord} (hp : OnBoard n p) : ∃ r, Adj p r ∧ OnBoard n r := by
  obtain ⟨a, b⟩ := p
  obtain ⟨ha, hb⟩ := hp
  dsimp only at ha hb
  by_cases h : 2 ≤ n.h
  · by_cases h0 : a = 0
    · exact ⟨(a + 1, b), by unfold Adj; dsimp only; omega, by dsimp only; omega, hb⟩
    · exact ⟨(a - 1, b), by unfold Adj; dsimp only; omega, by dsimp only; omega, hb⟩
  · have : 2 ≤ n.w := by
      unfold Dim.area at h2
      have : n.h = 1 := by omega
      rw [this] at h2; omega
    by_cases h0 : b = 0
    · exact ⟨(a, b + 1), by unfold Adj; dsimp only; omega, ha, by dsimp only; omega⟩
    · exact ⟨(a, b - 1), by unfold Adj; dsimp only; omega, ha, by dsimp only; omega⟩

theorem some_play {n : Dim} (h : Legal dbg n m g) (hps : g.passes ≠ 2) (hm : m < 65535) (h2 : 2 ≤ n.area)
    (hst : 5 * (g.goban.numberOfStones.1 + g.goban.numberOfStones.2) < n.area) : ∃ p, OnBoard n p ∧ g.Accepts dbg p := by
  obtain ⟨o, s, m', hm', hps2, hs⟩ := h.sim
  rw [numberOfStones_ok hs.inv] at hst
  obtain ⟨p, hp, he, hfree⟩ := free_point (pos := g.goban.view) hst
  obtain ⟨r, ha, hr⟩ := exists_neighbour h2 hp
  refine ⟨p, hp, C74_next_to_empty h hps hm hp ((getColor_none hs.inv hp).2 he) ha hr
    ((getColor_none hs.inv hr).2 (hfree r ha hr)) ?_⟩
  intro _ hc
  have hd : NoDead n g.goban.view := hs.noDead'
  obtain ⟨q, h1, h3, h4, _⟩ := (capture_iff hd he).1 hc
  rw [hfree q h1 h3] at h4; cases h4

/-- **C74**. On a square board of side at least 2 with fewer stones than a fifth of its points, in a legal game that is not
paused, `legals()` is not empty, whatever the rule and the position. -/
theorem C74_room {n : Nat} (h : Legal dbg n m g) (hps : g.passes ≠ 2) (hm : m < 65535) (h2 : 2 ≤ n)
    (hst : 5 * (g.goban.numberOfStones.1 + g.goban.numberOfStones.2) < n * n) : ∃ l, g.legals dbg = .ok l ∧ l ≠ [] := by
  classical
  obtain ⟨l, e, hl, _⟩ := Legal.legals h hps hm
  obtain ⟨p, hp, ha⟩ := some_play h hps hm (n := n) (by
    show 2 ≤ n * n
    have := Nat.mul_le_mul h2 h2; omega) hst
  refine ⟨l, e, ?_⟩
  have : p ∈ l := by rw [hl, List.mem_filter, decide_eq_true_eq]; exact ⟨mem_points.2 hp, ha⟩
  intro h'; rw [h'] at this; cases this

/-- A 3 × 3 game with one stone: `5 * 1 < 3 * 3`, the corner and the point below it are empty, nothing is captured there. -/
example : ∃ g, Legal true 3 1 g ∧ (g.passes ≠ 2 ∧ 5 * (g.goban.numberOfStones.1 + g.goban.numberOfStones.2) < 3 * 3 ∧
    g.goban.getColor (0, 0) = .ok none ∧ g.goban.getColor (1, 0) = .ok none ∧
    okAnd (g.legals true) (fun l => l.length = 8 ∧ (0, 0) ∈ l) = true : Bool) = true :=
  mkGame_exists (rule := CHINESE) (l := [.try_ (.play 1 1)]) (by decide) (by decide +kernel)

/-- How far the example program has come: `k` stones have been put on a 19 × 19 board from the start `g0`. -/
structure Going (dbg : Bool) (g0 : Game) (k : Nat) (g : Game) : Prop where
  legal : Legal dbg 19 k g
  plays : ∃ b w, b + w = k ∧ Plays dbg 19 g0 b w g
  passes : g.passes = 0
  outcome : g.outcome = none
  suicide : g.rule.flagIllegal.suicide = true
  sim : ∃ o s, ∃ m ≤ k, Sim dbg 19 m o g s ∧ s.passes ≤ 2 ∧ s.played.length = k ∧
    (k = 1 → ∃ b, s.played = [b] ∧ ¬ SameOn 19 b s.pos) ∧ (2 ≤ k → 2 ≤ (Spec.firsts 19 s.played).length)

theorem Going.next {g0 g' : Game} {k : Nat} (h : Going dbg g0 k g) {p : Coord} (hp : OnBoard 19 p)
    (e : g.tryPlay dbg (.play p.1 p.2) = .ok (none, g')) : Going dbg g0 (k + 1) g' := by
  have ep := C13_accepted_is_play e
  obtain ⟨b, w, hbw, hpl⟩ := h.plays
  obtain ⟨o, s, m, hm, hs, hps, hlen, h1, h2⟩ := h.sim
  obtain ⟨hrule, _, hacc⟩ := (hs.tryPlay_any (.play p.1 p.2) hp hps).of_ok e
  obtain ⟨_, hps', m', hm', hs'⟩ := hacc rfl
  have hans := (hs.tryPlay_answer (dbg := dbg) (.play p.1 p.2) hp hps).of_ok e
  have hans : Spec.answerSeen 19 g.rule.flagIllegal.forbidden s (.play p) = .ok := hans.symm
  have hns : ¬ Suicide 19 s.pos p s.turn := fun hsu => (answerSeen_ok hans).1 ⟨h.suicide, hsu⟩
  have hemp : s.pos p = none := by
    refine Classical.byContradiction fun hne => ?_
    unfold Spec.answerSeen at hans
    dsimp only at hans
    split at hans
    · cases hans
    · cases hans
  have hgot : g.goban.getColor p = .ok none := (getColor_none hs.inv hp).2 (by rw [hs.pos p hp]; exact hemp)
  refine ⟨h.legal.tryPlay (mv := .play p.1 p.2) hp e, ?_, (C16_play ep).2, ?_, by rw [hrule]; exact h.suicide, ?_⟩
  · have := hpl.play (x := p.1) (y := p.2) hp hgot ep
    refine ⟨_, _, ?_, this⟩
    cases g.turn <;> simp <;> omega
  · rw [play_eq] at ep
    obtain ⟨_, _, ep⟩ := bind_eq_ok ep
    obtain ⟨_, _, ep⟩ := bind_eq_ok ep
    cases ep; exact h.outcome
  · refine ⟨o, _, m', by omega, hs', hps', ?_, ?_, ?_⟩
    · show (s.played ++ [s.pos]).length = _
      rw [List.length_append, hlen]; rfl
    · intro hk
      have hk : k = 0 := by omega
      subst hk
      have : s.played = [] := List.length_eq_zero_iff.1 hlen
      refine ⟨s.pos, ?_, ?_⟩
      · show s.played ++ [s.pos] = _
        rw [this]; rfl
      · intro hsame
        have h3 := hsame p hp
        have h4 : Spec.play 19 (!g.rule.flagIllegal.forbidden.suicide) s.pos p s.turn p = some s.turn := by
          rw [play_eq_after _ hs.noDead hp hemp hns p hp]; exact after_self
        rw [hemp] at h3
        exact absurd (h3.trans h4) (by simp)
    · intro hk
      show 2 ≤ (Spec.firsts 19 (s.played ++ [s.pos])).length
      by_cases hk1 : k = 1
      · obtain ⟨b, hb, hne⟩ := h1 hk1
        rw [hb, firsts_append]
        have : Spec.firsts 19 [b] = [b] := by
          have := firsts_append (n := 19) [] b
          rw [List.nil_append] at this
          rw [this, if_neg]
          · rfl
          · rintro ⟨q, hq, _⟩; cases hq
        rw [this, if_neg]
        · simp
        · rintro ⟨q, hq, hs⟩
          rw [List.mem_singleton] at hq
          subst hq
          exact hne hs
      · exact Nat.le_trans (h2 (by omega)) (firsts_length_append _ _)

/-- A random choice: an element of the list, unless the list is empty. -/
def Chooses (choose : Nat → List Coord → Option Coord) : Prop := ∀ i l, l ≠ [] → ∃ p ∈ l, choose i l = some p

theorem readmeLoop_ok {g0 : Game} (hf : Fresh dbg 19 0 g0) (hempty : g0.goban.numberOfStones = (0, 0))
    {ord : List Point → List Point} (hord : ∀ l, (ord l).Perm l) {choose : Nat → List Coord → Option Coord}
    (hc : Chooses choose) : ∀ (i k : Nat) (g : Game), Going dbg g0 k g → k + i = 35 →
    ∃ g', Game.readmeLoop dbg ord choose i g = .ok g' ∧ Going dbg g0 35 g'
  | 0, k, g, h, hk => by
    have : k = 35 := by omega
    subst this
    exact ⟨g, rfl, h⟩
  | i + 1, k, g, h, hk => by
    classical
    have hps : g.passes ≠ 2 := by rw [h.passes]; decide
    have hover : g.isOver = false := by unfold Game.isOver; rw [h.outcome, h.passes]; rfl
    obtain ⟨b, w, hbw, hpl⟩ := h.plays
    have hcons := C11_conservation hf hpl
    rw [hempty] at hcons
    obtain ⟨l, e, hne⟩ := C74_room h.legal hps (by omega) (by decide) (by
      dsimp only at hcons
      show 5 * _ < 361
      omega)
    obtain ⟨l', e', hl, _⟩ := Legal.legals h.legal hps (by omega)
    rw [e] at e'; cases e'
    obtain ⟨p, hp, ec⟩ := hc i l hne
    rw [hl, List.mem_filter, decide_eq_true_eq] at hp
    obtain ⟨hp, g', eg⟩ := hp
    have hp := mem_points.1 hp
    have hn := h.next hp eg
    obtain ⟨m', hm', hr⟩ := hn.legal.reach
    obtain ⟨_, _, _, _, _, _, ⟨out, eout⟩, _⟩ := C65_game hr hord
    obtain ⟨g2, e2, h2⟩ := readmeLoop_ok hf hempty hord hc i (k + 1) g' hn (by omega)
    refine ⟨g2, ?_, h2⟩
    unfold Game.readmeLoop
    rw [hover]
    simp only [Bool.false_eq_true, if_false]
    rw [e, ok_bind, ec]
    dsimp only
    rw [C13_accepted_is_play eg, ok_bind, prettyString_ok hr.inv, ok_bind, eout, ok_bind, toVec_view hr.inv, ok_bind]
    exact e2

/-- **C74**. The example program of the README does not panic, whatever the random choices: it plays 35 rounds, every one of
them a move `try_play` accepts, and afterwards 35 stones are on the board or have been captured, the game is not over, and
the history has the two entries the program takes from it. -/
theorem C74_readme {ord : List Point → List Point} (hord : ∀ l, (ord l).Perm l) {choose : Nat → List Coord → Option Coord}
    (hc : Chooses choose) : ∃ g, Game.readme dbg ord choose = .ok g ∧ Legal dbg 19 35 g ∧ g.isOver = false ∧
      g.goban.numberOfStones.1 + g.goban.numberOfStones.2 + (g.prisoners.1 + g.prisoners.2) = 35 ∧ 2 ≤ g.history.length := by
  obtain ⟨g0, hsays, _, hf, eb⟩ := C29_build (dbg := dbg) (n := 19) (b := (GameBuilder.default.setSize (19, 19)).setRule CHINESE)
    rfl (by decide) (by decide) (by decide) List.nodup_nil (by intro p hp; cases hp)
  have hf : Fresh dbg 19 0 g0 := hf
  have eb : ((GameBuilder.default.setSize (19, 19)).setRule CHINESE).build dbg = .ok (g0, GameBuilder.default) := eb
  have hinv := (Reach.fresh hf).inv
  have hview : ∀ p, OnBoard 19 p → g0.goban.view p = none := fun p hp =>
    (getColor_none hinv hp).1 (hsays.empty p hp (by intro h; cases h) (by intro h; cases h))
  have hd : NoDead 19 g0.goban.view := fun p hp hne => absurd (hview p hp) hne
  have hz : ∀ c, Spec.count 19 g0.goban.view (some c) = 0 := by
    intro c
    unfold Spec.count
    rw [List.length_eq_zero_iff, List.filter_eq_nil_iff]
    intro p hp
    rw [hview p (mem_points.1 hp)]; simp
  have hempty : g0.goban.numberOfStones = (0, 0) := by rw [numberOfStones_ok hinv, hz, hz]
  have hstart : Going dbg g0 0 g0 := ⟨.fresh hf hd, ⟨0, 0, rfl, .start⟩, hsays.passes, hsays.outcome,
    by rw [hsays.illegal]; rfl, _, _, 0, Nat.le_refl _, hf.sim hd, Nat.zero_le _, rfl,
    ⟨fun h => absurd h (by decide), fun h => absurd h (by decide)⟩⟩
  obtain ⟨g, e, hg⟩ := readmeLoop_ok hf hempty hord hc 35 0 g0 hstart rfl
  obtain ⟨o, s, m, hm, hs, _, _, _, h2⟩ := hg.sim
  have hh : 2 ≤ g.history.length := by rw [hs.hist.length]; exact h2 (by decide)
  refine ⟨g, ?_, hg.legal, ?_, ?_, hh⟩
  · unfold Game.readme
    rw [eb, ok_bind]
    dsimp only
    rw [e, ok_bind, if_neg (by omega)]
  · unfold Game.isOver; rw [hg.outcome, hg.passes]; rfl
  · obtain ⟨b, w, hbw, hpl⟩ := hg.plays
    have hcons := C11_conservation hf hpl
    rw [hempty] at hcons
    dsimp only at hcons
    omega

/-- A run of the example program: it always takes the first legal point. -/
example : Chooses (fun _ l => l.head?) := by
  intro _ l hl
  cases l with
  | nil => exact absurd rfl hl
  | cons a l => exact ⟨a, by simp, rfl⟩

/-! ## C75 -/

theorem playRandom_ok {n : Dim} (h : Reach dbg n m g) : ∀ (v : List Coord), (∀ p ∈ v, OnBoard n p ∧ g.Accepts dbg p) →
    (∃ p ∈ v, g.Candidate dbg n p ∧ g.playRandom dbg v = .ok (.play p.1 p.2)) ∨
      ((∀ p ∈ v, ¬ g.Candidate dbg n p) ∧ g.playRandom dbg v = .ok .pass)
  | [], _ => Or.inr ⟨by simp, rfl⟩
  | c :: v, hv => by
    obtain ⟨hc, he⟩ := hv c (by simp)
    obtain ⟨b, e2, hb⟩ := checkEye_ok (dbg := dbg) (c := g.turn) h.inv hc
    have ih := playRandom_ok h v (fun p hp => hv p (by simp [hp]))
    unfold Game.playRandom
    rw [e2, ok_bind]
    cases b with
    | true =>
      have hnc : ¬ g.Candidate dbg n c := fun h2 => h2.2.2 (hb.1 rfl)
      rcases ih with ⟨p, h1, h2, h3⟩ | ⟨h1, h2⟩
      · exact Or.inl ⟨p, by simp [h1], h2, by simpa using h3⟩
      · exact Or.inr ⟨by simpa using ⟨hnc, fun a b hab => h1 (a, b) hab⟩, by simpa using h2⟩
    | false =>
      refine Or.inl ⟨c, by simp, ⟨hc, he, ?_⟩, rfl⟩
      intro h2
      have := hb.2 h2
      cases this

theorem fastPlayRandom_first {n : Dim} (h : Reach dbg n m g) (hps : g.passes ≠ 2) (hm : m < 65535) {p : Coord}
    (hp : g.Candidate dbg n p) (v : List Coord) : g.fastPlayRandom dbg (p :: v) = .ok (.play p.1 p.2) := by
  obtain ⟨b, e2, hb⟩ := checkEye_ok (dbg := dbg) (c := g.turn) h.inv hp.1
  have : b = false := by
    cases b with
    | false => rfl
    | true => exact absurd (hb.1 rfl) hp.2.2
  subst this
  unfold Game.fastPlayRandom
  rw [((accepts_iff h hps hm hp.1).1 hp.2.1).2, ok_bind]
  simp only [Option.isNone_none, if_true]
  rw [e2]; rfl

theorem playRandom_first {n : Dim} (h : Reach dbg n m g) {p : Coord} (hp : g.Candidate dbg n p) (v : List Coord) :
    g.playRandom dbg (p :: v) = .ok (.play p.1 p.2) := by
  obtain ⟨b, e2, hb⟩ := checkEye_ok (dbg := dbg) (c := g.turn) h.inv hp.1
  have : b = false := by
    cases b with
    | false => rfl
    | true => exact absurd (hb.1 rfl) hp.2.2
  subst this
  unfold Game.playRandom
  rw [e2]; rfl

/-- The moves of a sensible play-out: accepted points of the first `w` rows (on a square board: accepted points) that are no own
eyes, or a pass if there are none. -/
def Game.Sensible (dbg : Bool) (n : Dim) (g : Game) (mv : Move) : Prop :=
  (∃ p, p.1 < n.w ∧ g.Candidate dbg n p ∧ mv = .play p.1 p.2) ∨ ((∀ p, p.1 < n.w → ¬ g.Candidate dbg n p) ∧ mv = .pass)

/-- **C75**. In every reachable game that is not paused, the slow play-out policy of the benchmarks (a shuffle of the legal moves) and
the fast one (a shuffle of the empty points) never panic and can make the same moves: an accepted point that is not an own
eye, every such point, or a pass if there is none. On a board that is not square only the points of the first `w` rows count. -/
theorem C75_policies {n : Dim} (h : Reach dbg n m g) (hps : g.passes ≠ 2) (hm : m < 65535) {ls ps : List Coord}
    (el : g.legals dbg = .ok ls) (ep : g.pseudoLegals = .ok ps) :
    (∀ v, v.Perm ls → ∃ mv, g.playRandom dbg v = .ok mv ∧ g.Sensible dbg n mv) ∧
    (∀ v, v.Perm ps → ∃ mv, g.fastPlayRandom dbg v = .ok mv ∧ g.Sensible dbg n mv) ∧
    (∀ mv, g.Sensible dbg n mv → (∃ v, v.Perm ls ∧ g.playRandom dbg v = .ok mv) ∧
      ∃ v, v.Perm ps ∧ g.fastPlayRandom dbg v = .ok mv) := by
  classical
  rw [C91_legals h hps hm] at el
  have hl := (Except.ok.inj el).symm
  have hmem : ∀ p, p ∈ ls ↔ (OnBoard n p ∧ p.1 < n.w) ∧ g.Accepts dbg p := by
    intro p; rw [hl, List.mem_filter, mem_scan h.inv.good, decide_eq_true_eq]
  have hmem' : ∀ p, OnBoard n p → p.1 < n.w → g.Accepts dbg p → p ∈ ps := fun p hp hw ha =>
    (pseudoLegals_mem h ep).2 p hp hw ((accepts_iff h hps hm hp).1 ha).1
  have h1 : ∀ v, v.Perm ls → ∃ mv, g.playRandom dbg v = .ok mv ∧ g.Sensible dbg n mv := by
    intro v hv
    rcases playRandom_ok h v (fun p hp => by
      have := (hmem p).1 (hv.mem_iff.1 hp)
      exact ⟨this.1.1, this.2⟩) with ⟨p, h1, h2, h3⟩ | ⟨h2, h3⟩
    · exact ⟨_, h3, Or.inl ⟨p, ((hmem p).1 (hv.mem_iff.1 h1)).1.2, h2, rfl⟩⟩
    · exact ⟨_, h3, Or.inr ⟨fun p hw hp => h2 p (hv.mem_iff.2 ((hmem p).2 ⟨⟨hp.1, hw⟩, hp.2.1⟩)) hp, rfl⟩⟩
  have h2 : ∀ v, v.Perm ps → ∃ mv, g.fastPlayRandom dbg v = .ok mv ∧ g.Sensible dbg n mv := by
    intro v hv
    rcases C91_random h hps hm ep hv with ⟨p, h2, h3, h4⟩ | ⟨h2, h3⟩
    · exact ⟨_, h4, Or.inl ⟨p, h2, h3, rfl⟩⟩
    · exact ⟨_, h3, Or.inr ⟨h2, rfl⟩⟩
  refine ⟨h1, h2, ?_⟩
  rintro mv (⟨p, hw, hp, rfl⟩ | ⟨hno, rfl⟩)
  · have hpl := (hmem p).2 ⟨⟨hp.1, hw⟩, hp.2.1⟩
    have hpp := hmem' p hp.1 hw hp.2.1
    exact ⟨⟨p :: ls.erase p, (List.perm_cons_erase hpl).symm, playRandom_first h hp _⟩,
      ⟨p :: ps.erase p, (List.perm_cons_erase hpp).symm, fastPlayRandom_first h hps hm hp _⟩⟩
  · have pass : ∀ mv, g.Sensible dbg n mv → mv = .pass := by
      rintro mv (⟨p, hw, hp, _⟩ | ⟨_, h⟩)
      · exact absurd hp (hno p hw)
      · exact h
    obtain ⟨mv, e, hmv⟩ := h1 ls (List.Perm.refl _)
    obtain ⟨mv2, e2, hmv2⟩ := h2 ps (List.Perm.refl _)
    rw [pass _ hmv] at e
    rw [pass _ hmv2] at e2
    exact ⟨⟨ls, List.Perm.refl _, e⟩, ⟨ps, List.Perm.refl _, e2⟩⟩

/-- In this 3 × 3 game the corner is an own eye: both policies skip it. -/
example : ∃ g, Legal true 3 6 g ∧ (g.passes ≠ 2 ∧ g.legals true = .ok [(0, 0), (0, 2), (1, 2), (2, 0), (2, 1)] ∧
    g.pseudoLegals = .ok [(0, 0), (0, 2), (1, 2), (2, 0), (2, 1)] ∧
    g.playRandom true [(0, 0), (2, 1), (0, 2), (1, 2), (2, 0)] = .ok (.play 2 1) ∧
    g.fastPlayRandom true [(0, 0), (2, 1), (0, 2), (1, 2), (2, 0)] = .ok (.play 2 1) : Bool) = true :=
  mkGame_exists (rule := JAPANESE) (l := [.try_ (.play 0 1), .try_ (.play 2 2), .try_ (.play 1 0), .try_ .pass,
    .try_ (.play 1 1), .try_ .pass]) (by decide) (by decide +kernel)

end Model
