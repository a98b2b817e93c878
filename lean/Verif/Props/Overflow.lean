import Verif.Props.FourPlies
/-!
# How deep `perft` can go before its `u64` overflows (C73)
-/

namespace Model
open Spec (OnBoard Adj Linked HasLiberty NoDead place SameOn Pos Suicide State removeDead)

variable {dbg : Bool} {m : Nat} {g : Game} {n : Dim} {s : State} {k : Nat}

/-- The points that carry a stone. -/
def stonesOf (n : Dim) (pos : Pos) : List Coord := (Spec.points n).filter (fun p => decide (pos p ≠ none))

open Classical in
/-- The points that are empty together with their neighbours. -/
noncomputable def freeOf (n : Dim) (pos : Pos) : List Coord :=
  (Spec.points n).filter (fun p => decide (pos p = none ∧ ∀ r, Adj p r → OnBoard n r → pos r = none))

open Classical in
/-- Every stone spoils at most five points. -/
theorem freeOf_length (pos : Pos) : n.area ≤ (freeOf n pos).length + 5 * (stonesOf n pos).length := by
  let N : Coord → List Coord := fun s => [s, (s.1 + 1, s.2), (s.1 - 1, s.2), (s.1, s.2 + 1), (s.1, s.2 - 1)]
  have hlen : ∀ l : List Coord, (l.flatMap N).length = 5 * l.length := by
    intro l
    induction l with
    | nil => rfl
    | cons a l ih => rw [List.flatMap_cons, List.length_append, ih]; show 5 + _ = 5 * (l.length + 1); omega
  have hsub : Spec.points n ⊆ freeOf n pos ++ (stonesOf n pos).flatMap N := by
    intro p hp
    have hp' := mem_points.1 hp
    rw [List.mem_append, List.mem_flatMap]
    by_cases he : pos p = none
    · by_cases hf : ∀ r, Adj p r → OnBoard n r → pos r = none
      · left
        unfold freeOf
        rw [List.mem_filter, decide_eq_true_eq]
        exact ⟨hp, he, hf⟩
      · right
        have : ∃ r, Adj p r ∧ OnBoard n r ∧ pos r ≠ none :=
          Classical.byContradiction fun h' => hf (fun r h1 h2 => Classical.byContradiction fun h3 => h' ⟨r, h1, h2, h3⟩)
        obtain ⟨r, h1, h2, h3⟩ := this
        refine ⟨r, List.mem_filter.2 ⟨mem_points.2 h2, by simpa using h3⟩, ?_⟩
        obtain ⟨a, b⟩ := p
        obtain ⟨c, d⟩ := r
        unfold Adj at h1
        simp only [N, List.mem_cons, Prod.mk.injEq, List.not_mem_nil, or_false]
        dsimp only at h1
        omega
    · right
      exact ⟨p, List.mem_filter.2 ⟨hp, by simpa using he⟩, by simp [N]⟩
  have := (List.subperm_of_subset (points_nodup n) hsub).length_le
  rw [points_length, List.length_append, hlen] at this
  exact this

/-- A move adds at most one stone. -/
theorem stonesOf_play {pos : Pos} {p : Coord} {c : Color} {b : Bool} :
    (stonesOf n (Spec.play n b pos p c)).length ≤ (stonesOf n pos).length + 1 := by
  have hsub : stonesOf n (Spec.play n b pos p c) ⊆ p :: stonesOf n pos := by
    intro q hq
    unfold stonesOf at hq
    rw [List.mem_filter, decide_eq_true_eq] at hq
    rw [List.mem_cons]
    by_cases hqp : q = p
    · exact Or.inl hqp
    · refine Or.inr (List.mem_filter.2 ⟨hq.1, ?_⟩)
      rw [decide_eq_true_eq]
      intro hn
      apply hq.2
      have h1 : place pos p c q = none := by rw [place_ne hqp]; exact hn
      have h2 : ∀ (P : Pos) (d : Color), P q = none → removeDead n P d q = none := by
        intro P d h
        unfold removeDead
        split
        · rfl
        · exact h
      unfold Spec.play
      split
      · exact h2 _ _ (h2 _ _ h1)
      · exact h2 _ _ h1
  have := (List.subperm_of_subset ((points_nodup n).filter _) hsub).length_le
  rw [List.length_cons] at this
  exact this

open Classical in
/-- A free point is accepted under every rule. -/
theorem Sim.accepts_free {o : Option EndGame} (hs : Sim dbg n m o g s) (hm : m < 65535) (hps : s.passes ≤ 1) (h2 : 2 ≤ n.area) {p : Coord}
    (hp : p ∈ freeOf n s.pos) : g.Accepts dbg p := by
  unfold freeOf at hp
  rw [List.mem_filter, decide_eq_true_eq] at hp
  obtain ⟨hp, he, hf⟩ := hp
  have hp := mem_points.1 hp
  obtain ⟨r, ha, hr⟩ := exists_neighbour h2 hp
  rw [hs.accepts_iff hm (by omega) hp]
  refine hs.quiet (by omega) hp he ha hr (hf r ha hr) _ (fun _ h => ?_)
  obtain ⟨q, h1, h3, h4, _⟩ := (capture_iff hs.noDead he).1 h.2.1
  rw [hf q h1 h3] at h4; cases h4

/-- `(a - 5 k) (a - 5 (k + 1)) ⋯`, `d` factors. -/
def roomy (a k : Nat) : Nat → Nat
  | 0 => 1
  | d + 1 => (a - 5 * k) * roomy a (k + 1) d

open Classical in
theorem roomy_le (h2 : 2 ≤ n.area) : ∀ (d k m : Nat) (g : Game) (o : Option EndGame) (s : State), Sim dbg n m o g s → s.passes ≤ 1 →
    (stonesOf n s.pos).length ≤ k → m + d ≤ 65535 → roomy n.area k d ≤ countGames dbg n g d
  | 0, k, m, g, o, s, _, _, _, _ => by rw [countGames_zero]; exact Nat.le_refl _
  | d + 1, k, m, g, o, s, hs, hps, hk, hm => by
    rw [countGames_succ]
    have hacc := fun p => hs.accepts_free (p := p) (by omega) hps h2
    have hlow : ∀ l : List Coord, (∀ p ∈ l, p ∈ (Spec.points n).filter (fun p => decide (g.Accepts dbg p))) →
        l.length * roomy n.area (k + 1) d ≤ (l.map (fun p => countGames dbg n (g.child dbg p) d)).sum := by
      intro l
      induction l with
      | nil => intro _; simp
      | cons p l ih =>
        intro hl
        rw [List.length_cons, Nat.succ_mul, List.map_cons, List.sum_cons, Nat.add_comm]
        refine Nat.add_le_add ?_ (ih fun q hq => hl q (by simp [hq]))
        have hp := hl p (by simp)
        rw [List.mem_filter, decide_eq_true_eq] at hp
        obtain ⟨_, m', hm', hs'⟩ := hs.child (by omega) (mem_points.1 hp.1) hp.2
        refine roomy_le h2 d (k + 1) m' _ o _ hs' (Nat.zero_le _) ?_ (by omega)
        have : (stonesOf n (Spec.play n (!g.rule.flagIllegal.forbidden.suicide) s.pos p s.turn)).length ≤ _ := stonesOf_play
        exact Nat.le_trans this (by omega)
    have hle : (freeOf n s.pos).length ≤ ((Spec.points n).filter (fun p => decide (g.Accepts dbg p))).length := by
      have hsub : freeOf n s.pos ⊆ (Spec.points n).filter (fun p => decide (g.Accepts dbg p)) := by
        intro p hp
        have hp' := hp
        unfold freeOf at hp'
        rw [List.mem_filter] at hp' ⊢
        exact ⟨hp'.1, by rw [decide_eq_true_eq]; exact hacc p hp⟩
      exact (List.subperm_of_subset ((points_nodup n).filter _) hsub).length_le
    refine Nat.le_trans ?_ (hlow _ (fun p hp => hp))
    have := freeOf_length (n := n) s.pos
    exact Nat.mul_le_mul_right _ (by omega)

theorem stonesOf_count (pos : Pos) : (stonesOf n pos).length = stoneCount n pos := by
  unfold stonesOf stoneCount Spec.count
  induction Spec.points n with
  | nil => rfl
  | cons a l ih =>
    simp only [List.filter_cons]
    cases hc : pos a with
    | none => simpa [hc] using ih
    | some c => cases c <;> simp at ih ⊢ <;> omega

/-- **C73**, room: on a board with `k` stones and `a ≥ 2` points, whatever the rule and the position, a legal game that is not paused
has at least `(a - 5 k) (a - 5 (k + 1)) ⋯` continuations of `d` stones (`d` factors). -/
theorem C73_room {d : Nat} (h : Legal dbg n m g) (hps : g.passes ≠ 2) (hm : m + d ≤ 65535) (h2 : 2 ≤ n.area)
    (hk : g.goban.numberOfStones.1 + g.goban.numberOfStones.2 ≤ k) : roomy n.area k d ≤ countGames dbg n g d := by
  obtain ⟨o, s, m', hm', hps2, hs⟩ := h.sim
  have := hs.passes
  refine roomy_le h2 d k m' g o s hs (by omega) ?_ (by omega)
  rw [numberOfStones_ok hs.inv] at hk
  rw [stonesOf_count]
  refine Nat.le_trans (Nat.le_of_eq ?_) hk
  show Spec.count n s.pos _ + Spec.count n s.pos _ = _
  rw [count_congr (fun p hp => (hs.pos p hp).symm), count_congr (fun p hp => (hs.pos p hp).symm)]

open Classical in
/-- The first of the stones goes to an empty point. -/
theorem countGames_empties {o : Option EndGame} (hs : Sim dbg n m o g s) (hm : m < 65535) (hps : s.passes ≤ 2) (d : Nat) :
    countGames dbg n g (d + 1) ≤ Spec.count n s.pos none * n.area ^ d := by
  rw [countGames_succ]
  have h1 : ∀ l : List Coord, (l.map (fun p => countGames dbg n (g.child dbg p) d)).sum ≤ l.length * n.area ^ d := by
    intro l
    induction l with
    | nil => simp
    | cons a l ih =>
      rw [List.map_cons, List.sum_cons, List.length_cons, Nat.succ_mul, Nat.add_comm]
      exact Nat.add_le_add ih (countGames_le d _)
  refine Nat.le_trans (h1 _) (Nat.mul_le_mul_right _ ?_)
  unfold Spec.count
  have hsub : (Spec.points n).filter (fun p => decide (g.Accepts dbg p)) ⊆ (Spec.points n).filter (fun p => decide (s.pos p = none)) := by
    intro p hp
    rw [List.mem_filter, decide_eq_true_eq] at hp ⊢
    refine ⟨hp.1, Classical.byContradiction fun hne => ?_⟩
    exact not_ok_of_occupied hne ((hs.accepts_iff hm hps (mem_points.1 hp.1)).1 hp.2)
  exact (List.subperm_of_subset ((points_nodup n).filter _) hsub).length_le

open Classical in
theorem countGames_two {t : Color} {pos : Pos} {o : Option EndGame} (hs : Sim dbg n 0 o g (State.start pos t)) (hb : Bare n pos)
    (hh : 2 ≤ n.h) (hw : 2 ≤ n.w) (d : Nat) : countGames dbg n g (d + 2) ≤ n.area * ((n.area - 1) * n.area ^ d) := by
  rw [countGames_succ]
  have h1 : ∀ l : List Coord, (∀ p ∈ l, p ∈ (Spec.points n).filter (fun p => decide (g.Accepts dbg p))) →
      (l.map (fun p => countGames dbg n (g.child dbg p) (d + 1))).sum ≤ l.length * ((n.area - 1) * n.area ^ d) := by
    intro l
    induction l with
    | nil => intro _; simp
    | cons p l ih =>
      intro hl
      rw [List.map_cons, List.sum_cons, List.length_cons, Nat.succ_mul, Nat.add_comm]
      refine Nat.add_le_add (ih fun q hq => hl q (by simp [hq])) ?_
      have hp := hl p (by simp)
      rw [List.mem_filter, decide_eq_true_eq] at hp
      have hp1 := mem_points.1 hp.1
      obtain ⟨_, m', hm', hs'⟩ := hs.child (Nat.zero_le _) hp1 hp.2
      have hE := (early_start (t := t) hb).next (by decide) hh hw hp1 (hb p hp1) g.rule.flagIllegal.forbidden
      refine Nat.le_trans (countGames_empties hs' (by omega) (Nat.zero_le _) d) (Nat.mul_le_mul_right _ ?_)
      have := hE.count
      omega
  refine Nat.le_trans (h1 _ (fun p hp => hp)) (Nat.mul_le_mul_right _ ?_)
  rw [← points_length]
  exact List.length_filter_le _ _

/-- **C73**, eight plies: from a new game on a square board, under every rule, `perft` of depth 8 still fits its `u64` on boards up to
16 × 16; on 17 × 17, 18 × 18 and 19 × 19 it does not: a debug build panics and a release build returns a wrong number. -/
theorem C73_eight {n : Nat} {size : GobanSizes} {rule : Rule} {g0 : Game} (hn : 2 ≤ n) (hsize : size.toSize = (n, n))
    (e : Game.new size rule = .ok g0) :
    (n ≤ 16 → Game.perft dbg 8 g0 = .ok (countGames dbg n g0 8)) ∧
    (17 ≤ n → Game.perft true 8 g0 = panic ∧ Game.perft false 8 g0 = .ok (countGames false n g0 8 % 2 ^ 64) ∧
      countGames false n g0 8 % 2 ^ 64 < countGames false n g0 8) := by
  have hfr : ∀ dbg, Fresh dbg n 0 g0 := fun dbg => .new (Nat.dvd_refl _) hsize e
  have hview : Bare n g0.goban.view := by
    unfold Game.new at e
    obtain ⟨b, eb, e⟩ := bind_eq_ok e
    cases e
    exact new_view (Nat.dvd_refl _) (by rw [hsize] at eb; exact eb)
  have hd : NoDead n g0.goban.view := fun p hp hne => absurd (hview p hp) hne
  have hps : g0.passes ≠ 2 := by rw [((hfr true).sim hd).passes]; show (0 : Nat) ≠ 2; decide
  have hn19 : n * n ≤ 361 := sq_le (Reach.fresh (hfr true)).inv.good
  constructor
  · intro h16
    rw [C73_perft 8 (.fresh (hfr dbg) hd) hps (by omega)]
    unfold inU64
    rw [if_pos]
    have h1 := countGames_two ((hfr dbg).sim hd) hview (n := n) hn hn 6
    have h2 : Dim.area (n : Dim) ≤ 256 := Nat.mul_le_mul h16 h16
    have h3 : Dim.area (n : Dim) * ((Dim.area (n : Dim) - 1) * Dim.area (n : Dim) ^ 6) ≤ 256 * (255 * 256 ^ 6) :=
      Nat.mul_le_mul h2 (Nat.mul_le_mul (by omega) (Nat.pow_le_pow_left h2 6))
    exact Nat.lt_of_le_of_lt (Nat.le_trans h1 h3) (by decide)
  · intro h17
    have hbig : ∀ dbg, 2 ^ 64 ≤ countGames dbg n g0 8 := by
      intro dbg
      have h1 := C73_room (d := 8) (k := 0) (.fresh (hfr dbg) hd) hps (by omega) (n := n) (by
        show 2 ≤ n * n
        have := Nat.mul_le_mul hn hn; omega) (by
        rw [numberOfStones_ok (Reach.fresh (hfr dbg)).inv]
        show stoneCount n g0.goban.view ≤ 0
        rw [← stonesOf_count]
        unfold stonesOf
        rw [List.filter_eq_nil_iff.2]
        · exact Nat.le_refl _
        · intro p hp
          rw [decide_eq_true_eq]
          exact fun h => h (hview p (mem_points.1 hp)))
      refine Nat.le_trans ?_ h1
      have : n = 17 ∨ n = 18 ∨ n = 19 := by
        have : n ≤ 19 := (Reach.fresh (hfr true)).inv.good.h19
        omega
      rcases this with rfl | rfl | rfl <;> decide
    refine ⟨?_, ?_, Nat.lt_of_lt_of_le (Nat.mod_lt _ (by decide)) (hbig false)⟩
    · rw [C73_perft 8 (.fresh (hfr true) hd) hps (by omega)]
      unfold inU64
      rw [if_neg (Nat.not_lt.2 (hbig true))]
      rfl
    · rw [C73_perft 8 (.fresh (hfr false) hd) hps (by omega)]
      unfold inU64
      rw [if_neg (Nat.not_lt.2 (hbig false))]
      rfl

/-- On the board and under the rule of the benchmark. -/
example : ∃ g0, Game.new .nineteen CHINESE = .ok g0 ∧ Game.perft true 7 g0 = .ok (countGames true (19 : Nat) g0 7) ∧
    Game.perft true 8 g0 = panic := by
  obtain ⟨g0, e⟩ : ∃ g0, Game.new .nineteen CHINESE = .ok g0 := ⟨_, rfl⟩
  have hfr : Fresh true (19 : Nat) 0 g0 := .new (Nat.dvd_refl _) rfl e
  have hview : Bare (19 : Nat) g0.goban.view := by
    unfold Game.new at e
    obtain ⟨b, eb, e⟩ := bind_eq_ok e
    cases e
    exact new_view (Nat.dvd_refl _) eb
  have hd : NoDead (19 : Nat) g0.goban.view := fun p hp hne => absurd (hview p hp) hne
  refine ⟨g0, e, C73_seven (by decide) (.fresh hfr hd) ?_ (by decide), ((C73_eight (dbg := true) (n := 19) (by decide) rfl e).2 (by decide)).1⟩
  rw [(hfr.sim hd).passes]; show (0 : Nat) ≠ 2; decide

end Model
