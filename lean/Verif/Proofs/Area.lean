import Verif.Spec.Area
import Verif.Proofs.Local
/-!
# What a stone does to the points counted by area

Statements about positions only.
-/

namespace Model
open Spec (OnBoard Adj Linked HasLiberty place SameOn Pos playLocal removeGroupIfDead Touches Territory Held)

variable {n : Dim} {pos : Pos} {p : Coord} {c : Color}

/-! ### The stone stays -/

theorem played_cases {q : Coord} (hq : q ≠ p) : playLocal n false pos p c q = pos q ∨
    (pos q = some c.opp ∧ playLocal n false pos p c q = none) := by
  by_cases h : pos q = some c.opp
  · rcases local_sub (n := n) (pos := pos) (p := p) (c := c) (s := false) q with h' | h'
    · exact Or.inr ⟨h, h'⟩
    · exact Or.inl (by rw [h', place_ne hq])
  · exact Or.inl (by rw [playLocal_keep (by rw [place_ne hq]; exact h), place_ne hq])

theorem played_of_ne {q : Coord} (hq : q ≠ p) (h : pos q ≠ some c.opp) : playLocal n false pos p c q = pos q := by
  rcases played_cases (n := n) (pos := pos) (c := c) hq with h' | h'
  · exact h'
  · exact absurd h'.1 h

theorem played_opp {q : Coord} (h : playLocal n false pos p c q = some c.opp) : pos q = some c.opp := by
  by_cases hq : q = p
  · subst hq; rw [playLocal_self] at h; exact absurd h some_ne_opp
  · rcases played_cases (n := n) (pos := pos) (c := c) hq with h' | h'
    · rw [← h', h]
    · exact h'.1

theorem played_own {q : Coord} (h : pos q = some c) : playLocal n false pos p c q = some c := by
  by_cases hq : q = p
  · subst hq; exact playLocal_self
  · rw [played_of_ne hq (by rw [h]; exact some_ne_opp), h]

section stays
variable (he : pos p = none)
include he

/-- The neighbours of a captured stone are the stone just put, other stones of that colour, and captured stones. -/
theorem captured_near {q r : Coord} (hqb : OnBoard n q) (h1 : pos q = some c.opp) (h2 : playLocal n false pos p c q = none)
    (ha : Adj q r) (hr : OnBoard n r) :
    r = p ∨ pos r = some c ∨ (pos r = some c.opp ∧ playLocal n false pos p c r = none) := by
  obtain ⟨⟨s, a, b, d, e⟩, f⟩ := (playLocal_none he h1).1 h2
  by_cases hrp : r = p
  · exact Or.inl hrp
  · rcases color_cases (pos r) c with h | h | h
    · exact absurd (f r ⟨hr, h, q, .refl _, ha⟩) hrp
    · exact Or.inr (Or.inl h)
    · have hl : Linked n pos q r := .step (.refl _) ha hr (by rw [h, h1])
      exact Or.inr (Or.inr ⟨h, (playLocal_none he h).2 ⟨⟨s, a, b, d, linked_trans e hl⟩, fun t ht => f t ((libAt_linked hqb hl).2 ht)⟩⟩)

/-- The hole left by captured stones touches the capturing colour. -/
theorem captured_touches {q : Coord} (hqb : OnBoard n q) (hpb : OnBoard n p) (h1 : pos q = some c.opp)
    (h2 : playLocal n false pos p c q = none) : Touches n (playLocal n false pos p c) q c := by
  obtain ⟨⟨s, a, b, d, e⟩, f⟩ := (playLocal_none he h1).1 h2
  have key : ∀ t, Linked n pos q t → playLocal n false pos p c t = none := fun t ht =>
    (playLocal_none he ((linked_same ht).trans h1)).2 ⟨⟨s, a, b, d, linked_trans e ht⟩, fun r hr => f r ((libAt_linked hqb ht).2 hr)⟩
  have key2 : ∀ t, Linked n pos q t → Linked n (playLocal n false pos p c) q t := by
    intro t ht
    induction ht with
    | refl => exact .refl _
    | step hl ha hr hh ih => exact .step ih ha hr (by rw [key _ (.step hl ha hr hh), key _ hl])
  exact ⟨s, p, key2 s (linked_symm b e), adj_symm a, hpb, playLocal_self⟩

/-- From the hole of captured stones one reaches captured points only. -/
theorem captured_region {q s : Coord} (hqb : OnBoard n q) (h1 : pos q = some c.opp) (h2 : playLocal n false pos p c q = none)
    (hl : Linked n (playLocal n false pos p c) q s) :
    OnBoard n s ∧ pos s = some c.opp ∧ playLocal n false pos p c s = none := by
  induction hl with
  | refl => exact ⟨hqb, h1, h2⟩
  | step hl ha hr hh ih =>
    obtain ⟨i1, i2, i3⟩ := ih
    rcases captured_near he i1 i2 i3 ha hr with h | h | h
    · subst h; rw [playLocal_self, i3] at hh; cases hh
    · rw [played_own h, i3] at hh; cases hh
    · exact ⟨hr, h⟩

theorem captured_held {q : Coord} (hqb : OnBoard n q) (hpb : OnBoard n p) (h1 : pos q = some c.opp)
    (h2 : playLocal n false pos p c q = none) : Territory n (playLocal n false pos p c) c q := by
  refine ⟨hqb, h2, captured_touches he hqb hpb h1 h2, ?_⟩
  rintro ⟨s, t, hl, ha, ht, hc⟩
  obtain ⟨i1, i2, i3⟩ := captured_region he hqb h1 h2 hl
  rcases captured_near he i1 i2 i3 ha ht with h | h | h
  · subst h; rw [playLocal_self] at hc; exact some_ne_opp hc
  · rw [played_own h] at hc; exact some_ne_opp hc
  · rw [h.2] at hc; cases hc

/-- The region of an empty point after the move is part of its region before. -/
theorem region_after {q s : Coord} (hqb : OnBoard n q) (hq : q ≠ p) (h0 : pos q = none) (hl : Linked n (playLocal n false pos p c) q s) :
    Linked n pos q s ∧ s ≠ p ∧ pos s = none := by
  have e0 : playLocal n false pos p c q = none := by rw [played_of_ne hq (by rw [h0]; simp), h0]
  induction hl with
  | refl => exact ⟨.refl _, hq, h0⟩
  | @step s r hl ha hr hh ih =>
    obtain ⟨i1, i2, i3⟩ := ih
    have e1 : playLocal n false pos p c r = none := by rw [hh, linked_same hl, e0]
    have hrp : r ≠ p := by rintro rfl; rw [playLocal_self] at e1; cases e1
    rcases played_cases (n := n) (pos := pos) (c := c) hrp with h | h
    · have h3 : pos r = none := by rw [← h, e1]
      exact ⟨.step i1 ha hr (by rw [h3, i3]), hrp, h3⟩
    · rcases captured_near he hr h.1 h.2 (adj_symm ha) (linked_onBoard i1 hqb) with h' | h' | h'
      · exact absurd h' i2
      · rw [i3] at h'; cases h'
      · rw [i3] at h'; cases h'.1

/-- The region of an empty point before the move is the same after, or it touches the new stone. -/
theorem region_before (hpb : OnBoard n p) {q s : Coord} (hq : q ≠ p) (h0 : pos q = none) (hl : Linked n pos q s) :
    Linked n (playLocal n false pos p c) q s ∨ Touches n (playLocal n false pos p c) q c := by
  induction hl with
  | refl => exact Or.inl (.refl _)
  | @step s r hl ha hr hh ih =>
    rcases ih with ih | ih
    · by_cases hrp : r = p
      · subst hrp; exact Or.inr ⟨s, r, ih, ha, hr, playLocal_self⟩
      · have e : pos r = none := by rw [hh, linked_same hl, h0]
        refine Or.inl (.step ih ha hr ?_)
        rw [played_of_ne hrp (by rw [e]; simp), e, linked_same ih, played_of_ne hq (by rw [h0]; simp), h0]
    · exact Or.inr ih

/-- What counted for the player counts for the player after the move. -/
theorem held_mono (hpb : OnBoard n p) {q : Coord} (h : Held n pos c q) : Held n (playLocal n false pos p c) c q := by
  rcases h with h | ⟨h1, h2, h3, h4⟩
  · exact Or.inl (played_own h)
  · by_cases hq : q = p
    · subst hq; exact Or.inl playLocal_self
    · refine Or.inr ⟨h1, by rw [played_of_ne hq (by rw [h2]; simp), h2], ?_, ?_⟩
      · obtain ⟨s, t, hl, ha, ht, hc⟩ := h3
        rcases region_before (c := c) he hpb hq h2 hl with h | h
        · exact ⟨s, t, h, ha, ht, played_own hc⟩
        · exact h
      · rintro ⟨s, t, hl, ha, ht, hc⟩
        exact h4 ⟨s, t, (region_after he h1 hq h2 hl).1, ha, ht, played_opp hc⟩

/-- What counts for the opponent after the move counted for the opponent before. -/
theorem held_opp (hpb : OnBoard n p) {q : Coord} (h : Held n (playLocal n false pos p c) c.opp q) : Held n pos c.opp q := by
  rcases h with h | ⟨h1, h2, h3, h4⟩
  · exact Or.inl (played_opp h)
  · rw [Color.opp_opp] at h4
    have hq : q ≠ p := by rintro rfl; rw [playLocal_self] at h2; cases h2
    have h0 : pos q = none := by
      rcases played_cases (n := n) (pos := pos) (c := c) hq with h | h
      · rw [← h, h2]
      · exact absurd (captured_touches he h1 hpb h.1 h.2) h4
    refine Or.inr ⟨h1, h0, ?_, ?_⟩
    · obtain ⟨s, t, hl, ha, ht, hc⟩ := h3
      exact ⟨s, t, (region_after he h1 hq h0 hl).1, ha, ht, played_opp hc⟩
    · rw [Color.opp_opp]
      rintro ⟨s, t, hl, ha, ht, hc⟩
      rcases region_before (c := c) he hpb hq h0 hl with h | h
      · exact h4 ⟨s, t, h, ha, ht, played_own hc⟩
      · exact h4 h

/-- Captured stones counted for the opponent and do not any more. -/
theorem captured_not_opp {q : Coord} (hqb : OnBoard n q) (hpb : OnBoard n p) (h1 : pos q = some c.opp)
    (h2 : playLocal n false pos p c q = none) : ¬ Held n (playLocal n false pos p c) c.opp q := by
  rintro (h | h)
  · rw [h2] at h; cases h
  · have := h.2.2.2
    rw [Color.opp_opp] at this
    exact this (captured_touches he hqb hpb h1 h2)

/-- In own territory nothing is captured. -/
theorem territory_no_capture (ht : Territory n pos c p) {q : Coord} (hq : q ≠ p) : playLocal n false pos p c q = pos q := by
  rcases played_cases (n := n) (pos := pos) (c := c) hq with h | h
  · exact h
  · obtain ⟨⟨s, a, b, d, _⟩, _⟩ := (playLocal_none he h.1).1 h.2
    exact absurd ⟨p, s, .refl _, a, b, d⟩ ht.2.2.2

theorem region_apart (hpb : OnBoard n p) (ht : Territory n pos c p) {q s : Coord} (hqb : OnBoard n q) (hq : q ≠ p) (h0 : pos q = none)
    (hnl : ¬ Linked n pos p q) : Linked n pos q s ↔ Linked n (playLocal n false pos p c) q s := by
  constructor
  · intro hl
    have e0 : playLocal n false pos p c q = none := by rw [territory_no_capture he ht hq, h0]
    induction hl with
    | refl => exact .refl _
    | @step s r hl ha hr hh ih =>
      have hrp : r ≠ p := by rintro rfl; exact hnl (linked_symm hqb (.step hl ha hr hh))
      refine .step ih ha hr ?_
      rw [linked_same ih, e0, territory_no_capture he ht hrp, hh, linked_same hl, h0]
  · exact fun hl => (region_after he hqb hq h0 hl).1

/-- A stone in own territory changes nothing in what counts by area, for either player. -/
theorem held_territory (hpb : OnBoard n p) (ht : Territory n pos c p) (d : Color) {q : Coord} (hqb : OnBoard n q) :
    Held n (playLocal n false pos p c) d q ↔ Held n pos d q := by
  have hd : d = c ∨ d = c.opp := by cases c <;> cases d <;> simp [Color.opp]
  have apart : ∀ x : Color, q ≠ p → pos q = none → ¬ Linked n pos p q →
      (Touches n (playLocal n false pos p c) q x ↔ Touches n pos q x) := by
    intro x hq h0 hnl
    have key : ∀ s t, Linked n pos q s → Adj s t → OnBoard n t → t ≠ p := by
      rintro s t hl ha ht' rfl
      exact hnl (linked_symm hqb (.step hl ha ht' (by rw [he, linked_same hl, h0])))
    constructor
    · rintro ⟨s, t, hl, ha, ht', hc⟩
      have hl' := (region_apart he hpb ht hqb hq h0 hnl).2 hl
      exact ⟨s, t, hl', ha, ht', by rw [← hc, territory_no_capture he ht (key s t hl' ha ht')]⟩
    · rintro ⟨s, t, hl, ha, ht', hc⟩
      exact ⟨s, t, (region_apart he hpb ht hqb hq h0 hnl).1 hl, ha, ht', by rw [← hc, territory_no_capture he ht (key s t hl ha ht')]⟩
  rcases hd with rfl | rfl
  · refine ⟨fun h => ?_, held_mono he hpb⟩
    by_cases hq : q = p
    · subst hq; exact Or.inr ht
    · rcases h with h | ⟨h1, h2, h3, h4⟩
      · exact Or.inl (by rw [← territory_no_capture he ht hq, h])
      · have h0 : pos q = none := by rw [← territory_no_capture he ht hq, h2]
        by_cases hl : Linked n pos p q
        · refine Or.inr ⟨h1, h0, ?_, ?_⟩
          · obtain ⟨s, t, a⟩ := ht.2.2.1
            exact ⟨s, t, linked_trans (linked_symm hpb hl) a.1, a.2⟩
          · rintro ⟨s, t, a⟩
            exact ht.2.2.2 ⟨s, t, linked_trans hl a.1, a.2⟩
        · exact Or.inr ⟨h1, h0, (apart _ hq h0 hl).1 h3, fun h => h4 ((apart _ hq h0 hl).2 h)⟩
  · refine ⟨held_opp he hpb, fun h => ?_⟩
    rcases h with h | ⟨h1, h2, h3, h4⟩
    · have hq : q ≠ p := by rintro rfl; rw [he] at h; cases h
      exact Or.inl (by rw [territory_no_capture he ht hq, h])
    · have hl : ¬ Linked n pos p q := by
        intro hl
        obtain ⟨s, t, a⟩ := h3
        exact ht.2.2.2 ⟨s, t, linked_trans hl a.1, a.2⟩
      have hq : q ≠ p := by rintro rfl; exact hl (.refl _)
      exact Or.inr ⟨h1, by rw [territory_no_capture he ht hq, h2], (apart _ hq h2 hl).2 h3, fun h => h4 ((apart _ hq h2 hl).1 h)⟩

end stays

/-! ### Counting -/

theorem filter_sum_le {α : Type} {A B C D : α → Bool} : ∀ {l : List α},
    (∀ a ∈ l, (A a).toNat + (B a).toNat + (C a).toNat ≤ (D a).toNat) →
    (l.filter A).length + (l.filter B).length + (l.filter C).length ≤ (l.filter D).length
  | [], _ => by simp
  | a :: l, h => by
    have ih := filter_sum_le (l := l) (fun x hx => h x (List.mem_cons_of_mem _ hx))
    have ha := h a List.mem_cons_self
    simp only [List.filter_cons]
    revert ha
    cases A a <;> cases B a <;> cases C a <;> cases D a <;> simp <;> omega

theorem area_eq (pos : Pos) (c : Color) : Spec.area n pos c = Spec.count n pos (some c) + Spec.territorySize n pos c := by
  classical
  unfold Spec.area Spec.count Spec.territorySize
  induction Spec.points n with
  | nil => rfl
  | cons a l ih =>
    simp only [List.filter_cons, decide_eq_true_eq]
    have hx : pos a = some c → ¬ Territory n pos c a := fun h h' => by rw [h'.2.1] at h; cases h
    by_cases h1 : pos a = some c
    · have h2 := hx h1
      rw [if_pos (show Held n pos c a from Or.inl h1), if_pos h1, if_neg h2]
      simp only [List.length_cons]; omega
    · by_cases h2 : Territory n pos c a
      · rw [if_pos (show Held n pos c a from Or.inr h2), if_neg h1, if_pos h2]
        simp only [List.length_cons]; omega
      · rw [if_neg (show ¬ Held n pos c a by rintro (h | h); exact h1 h; exact h2 h), if_neg h1, if_neg h2, ih]

theorem filter_single {l : List Coord} (hn : l.Nodup) {p : Coord} (hp : p ∈ l) : (l.filter (fun q => decide (q = p))).length = 1 := by
  induction l with
  | nil => cases hp
  | cons a l ih =>
    obtain ⟨h1, h2⟩ := List.nodup_cons.1 hn
    rw [List.filter_cons]
    by_cases h : a = p
    · subst h
      have : l.filter (fun q => decide (q = a)) = [] := by
        rw [List.filter_eq_nil_iff]; intro x hx; simp; rintro rfl; exact h1 hx
      simp [this]
    · rw [if_neg (by simpa using h)]
      exact ih h2 (by rcases List.mem_cons.1 hp with h' | h'; exact absurd h'.symm h; exact h')

section count
variable (he : pos p = none) (hpb : OnBoard n p)
include he hpb

/-- Own territory: both areas stay. -/
theorem area_territory (ht : Territory n pos c p) (d : Color) : Spec.area n (playLocal n false pos p c) d = Spec.area n pos d := by
  classical
  unfold Spec.area
  congr 1
  apply List.filter_congr
  intro q hq
  rw [decide_eq_decide]
  exact held_territory he hpb ht d (mem_points.1 hq)

/-- Elsewhere: the area of the player grows by the stone and the captured stones at least. -/
theorem area_gain (ht : ¬ Territory n pos c p) :
    Spec.area n pos c + Spec.vanished n pos (playLocal n false pos p c) c.opp + 1 ≤ Spec.area n (playLocal n false pos p c) c := by
  classical
  unfold Spec.area Spec.vanished
  rw [← filter_single (points_nodup n) (mem_points.2 hpb)]
  apply filter_sum_le
  intro q hq
  have hqb := mem_points.1 hq
  by_cases hq : q = p
  · subst hq
    have h1 : ¬ Held n pos c q := by
      rintro (h | h)
      · rw [he] at h; cases h
      · exact ht h
    have h2 : Held n (playLocal n false pos q c) c q := Or.inl playLocal_self
    simp [h1, h2, he]
  · by_cases h1 : pos q = some c.opp ∧ playLocal n false pos p c q = none
    · have h2 : ¬ Held n pos c q := by
        rintro (h | h)
        · rw [h1.1] at h; exact some_ne_opp h.symm
        · rw [h.2.1] at h1; cases h1.1
      have h3 : Held n (playLocal n false pos p c) c q := Or.inr (captured_held he hqb hpb h1.1 h1.2)
      simp [h1, h2, h3, hq]
    · by_cases h2 : Held n pos c q
      · simp only [h2, h1, hq, held_mono he hpb h2]; decide
      · simp only [h2, h1, hq]; exact Nat.zero_le _

/-- The area of the opponent shrinks by the captured stones at least. -/
theorem area_loss : Spec.area n (playLocal n false pos p c) c.opp + Spec.vanished n pos (playLocal n false pos p c) c.opp ≤
    Spec.area n pos c.opp := by
  classical
  unfold Spec.area Spec.vanished
  have h := filter_sum_le (l := Spec.points n) (A := fun q => decide (Held n (playLocal n false pos p c) c.opp q))
    (B := fun q => decide (pos q = some c.opp ∧ playLocal n false pos p c q = none)) (C := fun _ => false)
    (D := fun q => decide (Held n pos c.opp q)) (by
      intro q hq
      have hqb := mem_points.1 hq
      by_cases h1 : pos q = some c.opp ∧ playLocal n false pos p c q = none
      · have h2 := captured_not_opp he hqb hpb h1.1 h1.2
        have h3 : Held n pos c.opp q := Or.inl h1.1
        simp [h1, h2, h3]
      · by_cases h2 : Held n (playLocal n false pos p c) c.opp q
        · simp only [h2, h1, held_opp he hpb h2]; decide
        · simp only [h2, h1]; exact Nat.zero_le _)
  have e : ((Spec.points n).filter (fun _ => false)).length = 0 := by simp
  omega

end count

/-! ### The stone is taken off again -/

section suicide
variable (he : pos p = none) (hs : Spec.SuicideLocal n pos p c)
include he hs

theorem suicide_keeps {q : Coord} (hqb : OnBoard n q) (hq : q ≠ p) : playLocal n false pos p c q = pos q := by
  rcases played_cases (n := n) (pos := pos) (c := c) hq with h | h
  · exact h
  · exact absurd hs (not_suicideLocal_of_captures he ⟨q, hqb, h.1, h.2⟩)

omit he in
theorem suicide_group {q : Coord} (h : Linked n (playLocal n false pos p c) p q) : playLocal n true pos p c q = none := by
  show removeGroupIfDead n (playLocal n false pos p c) p q = none
  unfold removeGroupIfDead
  rw [if_pos ⟨h, hs⟩]

theorem suicide_other {q : Coord} (hqb : OnBoard n q) (h : ¬ Linked n (playLocal n false pos p c) p q) :
    playLocal n true pos p c q = pos q := by
  have hq : q ≠ p := by rintro rfl; exact h (.refl _)
  show removeGroupIfDead n (playLocal n false pos p c) p q = _
  unfold removeGroupIfDead
  rw [if_neg (fun h' => h h'.1)]
  exact suicide_keeps he hs hqb hq

/-- The group that is taken off has only opposing stones around it. -/
theorem suicide_near {q r : Coord} (hl : Linked n (playLocal n false pos p c) p q) (ha : Adj q r) (hr : OnBoard n r) :
    Linked n (playLocal n false pos p c) p r ∨ (pos r = some c.opp ∧ playLocal n true pos p c r = some c.opp) := by
  by_cases h : Linked n (playLocal n false pos p c) p r
  · exact Or.inl h
  · right
    have hrp : r ≠ p := by rintro rfl; exact h (.refl _)
    have hk := suicide_keeps he hs hr hrp
    have h2 : pos r = some c.opp := by
      rcases color_cases (pos r) c with h' | h' | h'
      · exact absurd ⟨q, r, hl, ha, hr, by rw [hk, h']⟩ hs
      · exact absurd (.step hl ha hr (by rw [hk, h', linked_same hl, playLocal_self])) h
      · exact h'
    exact ⟨h2, by rw [suicide_other he hs hr h, h2]⟩

theorem suicide_color {q : Coord} (hl : Linked n (playLocal n false pos p c) p q) (hqb : OnBoard n q) : q = p ∨ pos q = some c := by
  by_cases hq : q = p
  · exact Or.inl hq
  · right
    rw [← suicide_keeps he hs hqb hq, linked_same hl, playLocal_self]

/-- From a point of the group that is taken off one reaches only such points. -/
theorem suicide_hole {q s : Coord} (h : Linked n (playLocal n false pos p c) p q) (hl : Linked n (playLocal n true pos p c) q s) :
    Linked n (playLocal n false pos p c) p s := by
  induction hl with
  | refl => exact h
  | step hl ha hr hh ih =>
    rcases suicide_near he hs ih ha hr with h' | h'
    · exact h'
    · rw [h'.2, suicide_group hs ih] at hh; cases hh

theorem suicide_hole_own {q : Coord} (h : Linked n (playLocal n false pos p c) p q) : ¬ Touches n (playLocal n true pos p c) q c := by
  rintro ⟨s, t, hl, ha, ht, hc⟩
  have h1 := suicide_hole he hs h hl
  rcases suicide_near he hs h1 ha ht with h' | h'
  · rw [suicide_group hs h'] at hc; cases hc
  · rw [h'.2] at hc; exact some_ne_opp hc.symm

theorem suicide_not_in {q : Coord} (hqb : OnBoard n q) (hq : q ≠ p) (h0 : pos q = none) :
    ¬ Linked n (playLocal n false pos p c) p q := by
  intro h
  rcases suicide_color he hs h hqb with h' | h'
  · exact hq h'
  · rw [h0] at h'; cases h'

theorem suicide_region (hpb : OnBoard n p) {q s : Coord} (hqb : OnBoard n q) (hq : q ≠ p) (h0 : pos q = none) :
    (Linked n (playLocal n true pos p c) q s → Linked n pos q s ∧ s ≠ p ∧ pos s = none) ∧
    (Linked n pos q s → Linked n (playLocal n true pos p c) q s ∧ s ≠ p ∧ pos s = none) := by
  have hn := suicide_not_in he hs hqb hq h0
  have e0 : playLocal n true pos p c q = none := by rw [suicide_other he hs hqb hn, h0]
  constructor
  · intro hl
    induction hl with
    | refl => exact ⟨.refl _, hq, h0⟩
    | @step s r hl ha hr hh ih =>
      obtain ⟨i1, i2, i3⟩ := ih
      have hsb := linked_onBoard i1 hqb
      have hsn := suicide_not_in he hs hsb i2 i3
      have hrn : ¬ Linked n (playLocal n false pos p c) p r := by
        intro h
        rcases suicide_near he hs h (adj_symm ha) hsb with h' | h'
        · exact hsn h'
        · rw [i3] at h'; cases h'.1
      have hrp : r ≠ p := by rintro rfl; exact hrn (.refl _)
      have e1 : pos r = none := by rw [← suicide_other he hs hr hrn, hh, linked_same hl, e0]
      exact ⟨.step i1 ha hr (by rw [e1, i3]), hrp, e1⟩
  · intro hl
    induction hl with
    | refl => exact ⟨.refl _, hq, h0⟩
    | @step s r hl ha hr hh ih =>
      obtain ⟨i1, i2, i3⟩ := ih
      have hsb := linked_onBoard hl hqb
      have e1 : pos r = none := by rw [hh, i3]
      have hrp : r ≠ p := by
        rintro rfl
        rcases suicide_near he hs (.refl _) (adj_symm ha) hsb with h' | h'
        · exact suicide_not_in he hs hsb i2 i3 h'
        · rw [i3] at h'; cases h'.1
      refine ⟨.step i1 ha hr ?_, hrp, e1⟩
      rw [suicide_other he hs hr (suicide_not_in he hs hr hrp e1), suicide_other he hs hsb (suicide_not_in he hs hsb i2 i3), e1, i3]

theorem suicide_own {t : Coord} (ht : OnBoard n t) (h : playLocal n true pos p c t = some c) :
    pos t = some c ∧ ¬ Linked n (playLocal n false pos p c) p t := by
  have hn : ¬ Linked n (playLocal n false pos p c) p t := fun h' => by rw [suicide_group hs h'] at h; cases h
  exact ⟨by rw [← suicide_other he hs ht hn, h], hn⟩

theorem suicide_opp {t : Coord} (ht : OnBoard n t) (h : pos t = some c.opp) : playLocal n true pos p c t = some c.opp := by
  rw [suicide_other he hs ht, h]
  intro h'
  rcases suicide_color he hs h' ht with h'' | h''
  · subst h''; rw [he] at h; cases h
  · rw [h] at h''; exact some_ne_opp h''.symm

/-- What counts for the player afterwards counted before, and is not one of the points taken off. -/
theorem held_suicide (hpb : OnBoard n p) {q : Coord} (hqb : OnBoard n q) (h : Held n (playLocal n true pos p c) c q) :
    Held n pos c q ∧ ¬ Linked n (playLocal n false pos p c) p q := by
  rcases h with h | ⟨h1, h2, h3, h4⟩
  · obtain ⟨a, b⟩ := suicide_own he hs hqb h
    exact ⟨Or.inl a, b⟩
  · have hn : ¬ Linked n (playLocal n false pos p c) p q := fun h => suicide_hole_own he hs h h3
    have hq : q ≠ p := by rintro rfl; exact hn (.refl _)
    have h0 : pos q = none := by rw [← suicide_other he hs hqb hn, h2]
    refine ⟨Or.inr ⟨h1, h0, ?_, ?_⟩, hn⟩
    · obtain ⟨s, t, hl, ha, ht, hc⟩ := h3
      exact ⟨s, t, ((suicide_region he hs hpb hqb hq h0).1 hl).1, ha, ht, (suicide_own he hs ht hc).1⟩
    · rintro ⟨s, t, hl, ha, ht, hc⟩
      exact h4 ⟨s, t, ((suicide_region he hs hpb hqb hq h0).2 hl).1, ha, ht, suicide_opp he hs ht hc⟩

/-- What counted for the opponent still does. -/
theorem held_suicide_opp (hpb : OnBoard n p) {q : Coord} (hqb : OnBoard n q) (h : Held n pos c.opp q) :
    Held n (playLocal n true pos p c) c.opp q := by
  rcases h with h | ⟨h1, h2, h3, h4⟩
  · exact Or.inl (suicide_opp he hs hqb h)
  · rw [Color.opp_opp] at h4
    by_cases hq : q = p
    · subst hq
      refine Or.inr ⟨h1, suicide_group hs (.refl _), ?_, by rw [Color.opp_opp]; exact suicide_hole_own he hs (.refl _)⟩
      obtain ⟨s, t, hl, ha, ht, hc⟩ := h3
      have key : ∀ s, Linked n pos q s → s = q := by
        intro s hl
        induction hl with
        | refl => rfl
        | @step s r hl' ha hr hh ih =>
          subst ih
          rcases suicide_near he hs (.refl _) ha hr with h' | h'
          · rcases suicide_color he hs h' hr with h'' | h''
            · exact h''
            · rw [hh, he] at h''; cases h''
          · rw [hh, he] at h'; cases h'.1
      rw [key s hl] at ha
      exact ⟨q, t, .refl _, ha, ht, suicide_opp he hs ht hc⟩
    · refine Or.inr ⟨h1, by rw [suicide_other he hs hqb (suicide_not_in he hs hqb hq h2), h2], ?_, ?_⟩
      · obtain ⟨s, t, hl, ha, ht, hc⟩ := h3
        exact ⟨s, t, ((suicide_region he hs hpb hqb hq h2).2 hl).1, ha, ht, suicide_opp he hs ht hc⟩
      · rw [Color.opp_opp]
        rintro ⟨s, t, hl, ha, ht, hc⟩
        exact h4 ⟨s, t, ((suicide_region he hs hpb hqb hq h2).1 hl).1, ha, ht, (suicide_own he hs ht hc).1⟩

/-- A suicide of `k` stones, the one just put included, costs the player `k - 1` points by area at least. -/
theorem area_suicide (hpb : OnBoard n p) :
    Spec.area n (playLocal n true pos p c) c + Spec.vanished n (place pos p c) (playLocal n true pos p c) c ≤ Spec.area n pos c + 1 := by
  classical
  have hD : ∀ q, OnBoard n q → place pos p c q = some c → playLocal n true pos p c q = none →
      Linked n (playLocal n false pos p c) p q := by
    intro q hqb h1 h2
    apply Classical.byContradiction
    intro hn
    have hq : q ≠ p := by rintro rfl; exact hn (.refl _)
    rw [suicide_other he hs hqb hn] at h2
    rw [place_ne hq, h2] at h1; cases h1
  unfold Spec.area Spec.vanished
  have h := filter_sum_le (l := Spec.points n) (A := fun q => decide (Held n (playLocal n true pos p c) c q))
    (B := fun q => decide (place pos p c q = some c ∧ playLocal n true pos p c q = none)) (C := fun _ => false)
    (D := fun q => decide (Held n pos c q) || decide (q = p)) (by
      intro q hq
      have hqb := mem_points.1 hq
      by_cases h1 : place pos p c q = some c ∧ playLocal n true pos p c q = none
      · have h2 := hD q hqb h1.1 h1.2
        have h3 : ¬ Held n (playLocal n true pos p c) c q := fun h => (held_suicide he hs hpb hqb h).2 h2
        have h4 : Held n pos c q ∨ q = p := (suicide_color he hs h2 hqb).elim Or.inr (fun h => Or.inl (Or.inl h))
        rcases h4 with h4 | h4
        · simp [h1, h3, h4]
        · subst h4; simp [h1, h3]
      · by_cases h2 : Held n (playLocal n true pos p c) c q
        · simp [h2, h1, (held_suicide he hs hpb hqb h2).1]
        · simp only [h2, h1]; exact Nat.zero_le _)
  have h' : ∀ l : List Coord, (l.filter (fun q => decide (Held n pos c q) || decide (q = p))).length ≤
      (l.filter (fun q => decide (Held n pos c q))).length + (l.filter (fun q => decide (q = p))).length := by
    intro l
    induction l with
    | nil => simp
    | cons a l ih =>
      simp only [List.filter_cons]
      cases decide (Held n pos c a) <;> cases decide (a = p) <;> simp <;> omega
  have h2 := h' (Spec.points n)
  rw [filter_single (points_nodup n) (mem_points.2 hpb)] at h2
  have e : ((Spec.points n).filter (fun _ => false)).length = 0 := by simp
  omega

/-- A suicide never costs the opponent anything by area. -/
theorem area_suicide_opp (hpb : OnBoard n p) : Spec.area n pos c.opp ≤ Spec.area n (playLocal n true pos p c) c.opp := by
  classical
  unfold Spec.area
  have h := filter_sum_le (l := Spec.points n) (A := fun q => decide (Held n pos c.opp q)) (B := fun _ => false) (C := fun _ => false)
    (D := fun q => decide (Held n (playLocal n true pos p c) c.opp q)) (by
      intro q hq
      by_cases h2 : Held n pos c.opp q
      · simp only [h2, held_suicide_opp he hs hpb (mem_points.1 hq) h2]; decide
      · simp only [h2]; exact Nat.zero_le _)
  have e : ((Spec.points n).filter (fun _ => false)).length = 0 := by simp
  omega

end suicide

theorem area_congr {a b : Pos} (h : SameOn n a b) (c : Color) : Spec.area n a c = Spec.area n b c := by
  classical
  unfold Spec.area
  congr 1
  apply List.filter_congr
  intro q hq
  rw [decide_eq_decide]
  unfold Held
  rw [h q (mem_points.1 hq), territory_congr h]

end Model
