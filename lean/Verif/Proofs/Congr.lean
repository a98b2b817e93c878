import Verif.Proofs.Stones
import Verif.Spec.Game
/-!
# The specification only looks at the points of the board
-/

namespace Model
open Spec (OnBoard Adj Linked HasLiberty NoDead place SameOn Pos removeDead Suicide)

variable {n : Dim} {a b : Pos}

theorem SameOn.refl (a : Pos) : SameOn n a a := fun _ _ => rfl

theorem hasLiberty_congr_iff (h : SameOn n a b) {p : Coord} (hp : OnBoard n p) : HasLiberty n a p ↔ HasLiberty n b p :=
  ⟨hasLiberty_congr h hp, hasLiberty_congr (SameOn.symm h) hp⟩

theorem linked_congr_iff (h : SameOn n a b) {p q : Coord} (hp : OnBoard n p) : Linked n a p q ↔ Linked n b p q :=
  ⟨linked_congr h hp, linked_congr (SameOn.symm h) hp⟩

theorem noDead_congr (h : SameOn n a b) : NoDead n a ↔ NoDead n b := by
  constructor
  · intro hd p hp hv; rw [← hasLiberty_congr_iff h hp]; exact hd p hp (by rw [h p hp]; exact hv)
  · intro hd p hp hv; rw [hasLiberty_congr_iff h hp]; exact hd p hp (by rw [← h p hp]; exact hv)

theorem removeDead_congr (h : SameOn n a b) (c : Color) : SameOn n (removeDead n a c) (removeDead n b c) := by
  intro q hq
  unfold removeDead
  rw [h q hq, hasLiberty_congr_iff h hq]

theorem after_congr (h : SameOn n a b) (p : Coord) (c : Color) : SameOn n (after n a p c) (after n b p c) :=
  removeDead_congr (place_congr h p c) _

theorem play_congr (h : SameOn n a b) (s : Bool) (p : Coord) (c : Color) : SameOn n (Spec.play n s a p c) (Spec.play n s b p c) := by
  unfold Spec.play
  cases s
  · exact after_congr h p c
  · exact removeDead_congr (after_congr h p c) c

theorem suicide_congr (h : SameOn n a b) {p : Coord} (hp : OnBoard n p) (c : Color) : Suicide n a p c ↔ Suicide n b p c :=
  not_congr (hasLiberty_congr_iff (after_congr h p c) hp)

theorem captures_congr (h : SameOn n a b) (p : Coord) (c : Color) : Spec.Captures n a p c ↔ Spec.Captures n b p c := by
  have h2 := after_congr h p c
  unfold after at h2
  constructor
  · rintro ⟨q, hq, h3, h4⟩; exact ⟨q, hq, by rw [← h q hq]; exact h3, by rw [← h2 q hq]; exact h4⟩
  · rintro ⟨q, hq, h3, h4⟩; exact ⟨q, hq, by rw [h q hq]; exact h3, by rw [h2 q hq]; exact h4⟩

theorem sameOn_congr {a' b' : Pos} (h : SameOn n a b) (h' : SameOn n a' b') : SameOn n a a' ↔ SameOn n b b' :=
  ⟨fun x => SameOn.trans (SameOn.symm h) (SameOn.trans x h'), fun x => SameOn.trans h (SameOn.trans x (SameOn.symm h'))⟩

theorem count_congr (h : SameOn n a b) (x : Option Color) : Spec.count n a x = Spec.count n b x := by
  unfold Spec.count
  congr 1
  apply filter_congr'
  intro p hp
  rw [h p (mem_points.1 hp)]

theorem vanished_congr {a' b' : Pos} (h : SameOn n a b) (h' : SameOn n a' b') (x : Color) :
    Spec.vanished n a a' x = Spec.vanished n b b' x := by
  unfold Spec.vanished
  congr 1
  apply filter_congr'
  intro p hp
  rw [h p (mem_points.1 hp), h' p (mem_points.1 hp)]

theorem territory_congr (h : SameOn n a b) (c : Color) (p : Coord) : Spec.Territory n a c p ↔ Spec.Territory n b c p := by
  have ht : ∀ {a b : Pos}, SameOn n a b → OnBoard n p → ∀ c, Spec.Touches n a p c → Spec.Touches n b p c := by
    rintro a b h hp c ⟨q, r, h1, h2, h3, h4⟩
    exact ⟨q, r, linked_congr h hp h1, h2, h3, by rw [← h r h3]; exact h4⟩
  constructor
  · rintro ⟨hp, h1, h2, h3⟩
    exact ⟨hp, by rw [← h p hp]; exact h1, ht h hp _ h2, fun x => h3 (ht (SameOn.symm h) hp _ x)⟩
  · rintro ⟨hp, h1, h2, h3⟩
    exact ⟨hp, by rw [h p hp]; exact h1, ht (SameOn.symm h) hp _ h2, fun x => h3 (ht h hp _ x)⟩

/-! ### Counting stones of the board -/

theorem countP_eq_one {α} [DecidableEq α] {p : α} : ∀ {l : List α}, l.Nodup → p ∈ l → l.countP (fun q => decide (q = p)) = 1
  | [], _, h => by cases h
  | x :: l, hnd, h => by
    obtain ⟨h1, h2⟩ := List.nodup_cons.1 hnd
    rw [List.countP_cons]
    rcases List.mem_cons.1 h with rfl | h
    · have : l.countP (fun q => decide (q = p)) = 0 := by
        rw [List.countP_eq_zero]
        intro q hq; rw [decide_eq_true_eq]; rintro rfl; exact h1 hq
      rw [this]; simp
    · rw [countP_eq_one h2 h, if_neg]
      rw [decide_eq_true_eq]; rintro rfl; exact h1 h

theorem count_place {pos : Pos} {p : Coord} {c : Color} (hp : OnBoard n p) (he : pos p = none) (x : Color) :
    Spec.count n (place pos p c) (some x) = Spec.count n pos (some x) + (if x = c then 1 else 0) := by
  unfold Spec.count
  rw [← List.countP_eq_length_filter, ← List.countP_eq_length_filter]
  rw [countP_split (p := fun q => decide (place pos p c q = some x)) (q := fun q => decide (pos q = some x))
    (r := fun q => decide (q = p) && decide (x = c))]
  · congr 1
    by_cases hx : x = c
    · rw [if_pos hx]
      rw [← countP_eq_one (points_nodup n) (mem_points.2 hp)]
      apply List.countP_congr
      intro q _
      simp [hx]
    · rw [if_neg hx, List.countP_eq_zero]
      intro q _; simp [hx]
  · intro q _
    rw [Bool.eq_iff_iff]
    simp only [Bool.or_eq_true, Bool.and_eq_true, decide_eq_true_eq]
    unfold place
    by_cases hq : q = p
    · subst hq
      rw [if_pos rfl, he]
      simp only [Option.some.injEq, reduceCtorEq, true_and, false_or]
      exact eq_comm
    · rw [if_neg hq]; simp [hq]
  · intro q _ h
    simp only [Bool.and_eq_true, decide_eq_true_eq] at h
    obtain ⟨h1, h2, _⟩ := h
    subst h2; rw [he] at h1; cases h1

theorem count_vanished {a b : Pos} (h : ∀ q, OnBoard n q → b q = none ∨ b q = a q) (x : Color) :
    Spec.count n a (some x) = Spec.count n b (some x) + Spec.vanished n a b x := by
  unfold Spec.count Spec.vanished
  rw [← List.countP_eq_length_filter, ← List.countP_eq_length_filter, ← List.countP_eq_length_filter]
  apply countP_split
  · intro q hq
    rw [Bool.eq_iff_iff]
    simp only [Bool.or_eq_true, decide_eq_true_eq]
    rcases h q (mem_points.1 hq) with h1 | h1
    · rw [h1]; simp
    · rw [h1]
      constructor
      · intro h; exact Or.inl h
      · rintro (h | ⟨h, _⟩) <;> exact h
  · intro q _ h
    simp only [decide_eq_true_eq] at h
    obtain ⟨h1, _, h2⟩ := h
    rw [h1] at h2; cases h2

theorem play_sub {pos : Pos} {s : Bool} {p : Coord} {c : Color} (q : Coord) :
    Spec.play n s pos p c q = none ∨ Spec.play n s pos p c q = place pos p c q := by
  unfold Spec.play
  cases s
  · exact removeDead_sub q
  · rcases removeDead_sub (n := n) (pos := removeDead n (place pos p c) c.opp) (c := c) q with h | h
    · exact Or.inl h
    · rcases removeDead_sub (n := n) (pos := place pos p c) (c := c.opp) q with h' | h'
      · exact Or.inl (h.trans h')
      · exact Or.inr (h.trans h')

/-! ### Eyes -/

theorem mem_corners {p q : Coord} (h : q ∈ Spec.corners n p) : OnBoard n q := by
  unfold Spec.corners at h
  exact of_decide_eq_true (List.mem_filter.1 h).2

theorem safeCorners_congr (h : SameOn n a b) (c : Color) (p : Coord) : Spec.safeCorners n a c p = Spec.safeCorners n b c p := by
  unfold Spec.safeCorners
  congr 2
  apply filter_congr'
  intro q hq
  rw [h q (mem_corners hq)]

theorem completes_congr (h : SameOn n a b) (c : Color) : ∀ (l : List Coord), Spec.Completes n a c l → Spec.Completes n b c l
  | [], h' => h'
  | q :: qs, h' => by
    unfold Spec.Completes at h' ⊢
    refine ⟨fun r h1 h2 => by rw [← h r h2]; exact h'.1 r h1 h2, ?_⟩
    rw [← safeCorners_congr h]
    rcases h'.2 with h1 | h1 | h1
    · exact Or.inl h1
    · exact Or.inr (Or.inl h1)
    · exact Or.inr (Or.inr (completes_congr h c qs h1))

theorem eye_congr' (h : SameOn n a b) {p : Coord} (hp : OnBoard n p) {c : Color} (h' : Spec.Eye n a c p) : Spec.Eye n b c p := by
  obtain ⟨h1, h2, h3⟩ := h'
  refine ⟨by rw [← h p hp]; exact h1, fun q hq hb => by rw [← h q hb]; exact h2 q hq hb, ?_⟩
  rw [← safeCorners_congr h]
  rcases h3 with h3 | ⟨h3, h4⟩
  · exact Or.inl h3
  · refine Or.inr ⟨h3, ?_⟩
    have := completes_congr h c _ h4
    rwa [filter_congr' (Q := fun q => decide (b q = none))] at this
    intro q hq
    rw [h q (mem_corners hq)]

theorem eye_congr (h : SameOn n a b) {p : Coord} (hp : OnBoard n p) (c : Color) : Spec.Eye n a c p ↔ Spec.Eye n b c p :=
  ⟨eye_congr' h hp, eye_congr' (SameOn.symm h) hp⟩

end Model
