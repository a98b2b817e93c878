import Verif.Proofs.Sym
import Verif.Spec.Contested
/-!
# The eye test and the symmetries of the board
-/

namespace Model
open Spec (OnBoard Adj Pos Symmetry Diagonal SoundCorner BrokenCorner Contested Surrounded)

variable {n : Dim}

theorem mem_corners_iff {p q : Coord} : q ∈ Spec.corners n p ↔ OnBoard n q ∧ Diagonal p q := by
  obtain ⟨x, y⟩ := p
  obtain ⟨a, b⟩ := q
  unfold Spec.corners Spec.diagonals
  rw [List.mem_filter, List.mem_filterMap, decide_eq_true_eq, And.comm]
  apply and_congr_right; intro _
  simp only [List.mem_cons, List.not_mem_nil, or_false, id_eq, exists_eq_right]
  unfold Diagonal
  simp only [Option.some.injEq, Prod.mk.injEq]
  constructor
  · rintro (h | h | h | h)
    · omega
    all_goals
      split at h
      · simp only [Option.some.injEq, Prod.mk.injEq] at h; omega
      · cases h
  · rintro ⟨h1 | h1, h2 | h2⟩
    · left; omega
    · right; right; left
      rw [if_pos (by omega)]; simp only [Option.some.injEq, Prod.mk.injEq]; omega
    · right; right; right
      rw [if_pos (by omega)]; simp only [Option.some.injEq, Prod.mk.injEq]; omega
    · right; left
      rw [if_pos (by omega)]; simp only [Option.some.injEq, Prod.mk.injEq]; omega

theorem corners_nodup (n : Dim) (p : Coord) : (Spec.corners n p).Nodup := by
  obtain ⟨x, y⟩ := p
  unfold Spec.corners
  apply List.Pairwise.filter
  show List.Nodup _
  unfold Spec.diagonals
  rcases Nat.eq_zero_or_pos x with rfl | hx <;> rcases Nat.eq_zero_or_pos y with rfl | hy
  · simp
  · rw [if_neg (by omega), if_pos (by omega), if_neg (by omega)]
    simp; omega
  · rw [if_neg (by omega), if_neg (by omega), if_pos (by omega)]
    simp; omega
  · rw [if_pos (by omega), if_pos (by omega), if_pos (by omega)]
    simp; omega

/-- Two points of the board are diagonal iff they are different and have two common neighbours. -/
theorem diagonal_iff {p q : Coord} (hp : OnBoard n p) (hq : OnBoard n q) :
    Diagonal p q ↔ p ≠ q ∧ ∃ r s, r ≠ s ∧ OnBoard n r ∧ OnBoard n s ∧ Adj p r ∧ Adj q r ∧ Adj p s ∧ Adj q s := by
  obtain ⟨x, y⟩ := p
  obtain ⟨a, b⟩ := q
  unfold OnBoard at hp hq
  constructor
  · rintro ⟨h1, h2⟩
    simp only at h1 h2 hp hq
    refine ⟨fun h => by cases h; omega, (x, b), (a, y), fun h => by cases h; omega, ⟨hp.1, hq.2⟩, ⟨hq.1, hp.2⟩, ?_⟩
    unfold Adj
    simp only
    simp only [true_and]
    refine ⟨?_, ?_, ?_, ?_⟩ <;> omega
  · rintro ⟨hne, ⟨r1, r2⟩, ⟨s1, s2⟩, hrs, -, -, h1, h2, h3, h4⟩
    have hne : ¬ (x = a ∧ y = b) := fun h => hne (by rw [h.1, h.2])
    have hrs : ¬ (r1 = s1 ∧ r2 = s2) := fun h => hrs (by rw [h.1, h.2])
    unfold Adj at h1 h2 h3 h4
    unfold Diagonal
    simp only at h1 h2 h3 h4 ⊢
    omega

variable (σ : Symmetry n)

theorem diagonal_sym {p q : Coord} (hp : OnBoard n p) (hq : OnBoard n q) : Diagonal (σ.map p) (σ.map q) ↔ Diagonal p q := by
  rw [diagonal_iff ((σ.onBoard p).2 hp) ((σ.onBoard q).2 hq), diagonal_iff hp hq, Ne, sym_map_eq]
  apply and_congr_right; intro _
  rw [sym_exists σ]
  apply exists_congr; intro r
  rw [sym_exists σ]
  apply exists_congr; intro s
  rw [Ne, sym_map_eq, σ.onBoard, σ.onBoard]
  apply and_congr_right; intro _
  apply and_congr_right; intro hr
  apply and_congr_right; intro hs
  rw [σ.adj _ _ hp hr, σ.adj _ _ hq hr, σ.adj _ _ hp hs, σ.adj _ _ hq hs]

theorem corners_sym {p : Coord} (hp : OnBoard n p) : ((Spec.corners n p).map σ.map).Perm (Spec.corners n (σ.map p)) := by
  apply (List.perm_ext_iff_of_nodup _ (corners_nodup n _)).2
  · intro q
    rw [List.mem_map, mem_corners_iff]
    constructor
    · rintro ⟨r, hr, rfl⟩
      rw [mem_corners_iff] at hr
      exact ⟨(σ.onBoard r).2 hr.1, (diagonal_sym σ hp hr.1).2 hr.2⟩
    · rintro ⟨h1, h2⟩
      have h3 := (sym_onBoard_inv σ).2 h1
      refine ⟨σ.inv q, mem_corners_iff.2 ⟨h3, ?_⟩, σ.map_inv q⟩
      rw [← diagonal_sym σ hp h3, σ.map_inv]
      exact h2
  · exact List.pairwise_map.2 ((corners_nodup n p).imp (fun h h' => h ((sym_map_eq σ).1 h')))

theorem safeCorners_sym (pos : Pos) (c : Color) {p : Coord} (hp : OnBoard n p) :
    Spec.safeCorners n (σ.pos pos) c (σ.map p) = Spec.safeCorners n pos c p := by
  unfold Spec.safeCorners
  rw [← (corners_sym σ hp).length_eq, ← ((corners_sym σ hp).filter _).length_eq, List.length_map, List.filter_map, List.length_map]
  congr 3
  funext q
  show decide (σ.pos pos (σ.map q) = some c) = _
  rw [sym_pos_map]

theorem surrounded_sym (pos : Pos) (c : Color) {p : Coord} (hp : OnBoard n p) :
    Surrounded n (σ.pos pos) c (σ.map p) ↔ Surrounded n pos c p := by
  unfold Surrounded
  rw [sym_forall σ]
  apply forall_congr'; intro q
  rw [sym_pos_map, σ.onBoard]
  constructor
  · intro h h1 h2; exact h ((σ.adj _ _ hp h2).2 h1) h2
  · intro h h1 h2; exact h ((σ.adj _ _ hp h2).1 h1) h2

theorem unopposed_sym (pos : Pos) (c : Color) {q : Coord} (hq : OnBoard n q) :
    (∀ r, Adj (σ.map q) r → OnBoard n r → σ.pos pos r ≠ some c) ↔ ∀ r, Adj q r → OnBoard n r → pos r ≠ some c := by
  rw [sym_forall σ]
  apply forall_congr'; intro r
  rw [sym_pos_map, σ.onBoard]
  constructor
  · intro h h1 h2; exact h ((σ.adj _ _ hq h2).2 h1) h2
  · intro h h1 h2; exact h ((σ.adj _ _ hq h2).1 h1) h2

theorem soundCorner_sym (pos : Pos) (c : Color) {p q : Coord} (hp : OnBoard n p) :
    SoundCorner n (σ.pos pos) c (σ.map p) (σ.map q) ↔ SoundCorner n pos c p q := by
  unfold SoundCorner
  rw [σ.onBoard, sym_pos_map]
  apply and_congr_right; intro hq
  rw [diagonal_sym σ hp hq, unopposed_sym σ pos _ hq, safeCorners_sym σ pos c hq]

theorem brokenCorner_sym (pos : Pos) (c : Color) {p q : Coord} (hp : OnBoard n p) :
    BrokenCorner n (σ.pos pos) c (σ.map p) (σ.map q) ↔ BrokenCorner n pos c p q := by
  unfold BrokenCorner
  rw [σ.onBoard, sym_pos_map]
  apply and_congr_right; intro hq
  rw [diagonal_sym σ hp hq, sym_exists σ]
  apply and_congr_right; intro _
  apply and_congr_right; intro _
  apply exists_congr; intro r
  rw [sym_pos_map, σ.onBoard]
  constructor
  · rintro ⟨h1, h2, h3⟩; exact ⟨(σ.adj _ _ hq h2).1 h1, h2, h3⟩
  · rintro ⟨h1, h2, h3⟩; exact ⟨(σ.adj _ _ hq h2).2 h1, h2, h3⟩

theorem contested_sym (pos : Pos) (c : Color) {p : Coord} (hp : OnBoard n p) :
    Contested n (σ.pos pos) c (σ.map p) ↔ Contested n pos c p := by
  unfold Contested
  rw [sym_pos_map, surrounded_sym σ pos c hp, safeCorners_sym σ pos c hp, sym_exists σ, sym_exists σ (P := fun q => SoundCorner _ _ _ _ q)]
  simp only [brokenCorner_sym σ pos c hp, soundCorner_sym σ pos c hp]

/-- The empty corners, in the order in which the eye test visits them. -/
def emptyCorners (n : Dim) (pos : Pos) (p : Coord) : List Coord := (Spec.corners n p).filter (fun q => pos q = none)

theorem mem_emptyCorners {pos : Pos} {p q : Coord} : q ∈ emptyCorners n pos p ↔ OnBoard n q ∧ Diagonal p q ∧ pos q = none := by
  unfold emptyCorners
  rw [List.mem_filter, mem_corners_iff, decide_eq_true_eq, and_assoc]

/-- Without a broken point in the list, the search finds any sound one. -/
theorem completes_of_none_broken {pos : Pos} {c : Color} : ∀ {l : List Coord},
    (∀ q ∈ l, ∀ r, Adj q r → OnBoard n r → pos r ≠ some c.opp) →
    (Spec.Completes n pos c l ↔ ∃ q ∈ l, Spec.safeCorners n pos c q = 2 ∨ Spec.safeCorners n pos c q = 3)
  | [], _ => by simp [Spec.Completes]
  | q :: l, h => by
    rw [Spec.Completes, completes_of_none_broken (l := l) (fun r hr => h r (by simp [hr]))]
    constructor
    · rintro ⟨-, h1 | h1 | ⟨r, hr, h1⟩⟩
      · exact ⟨q, by simp, Or.inl h1⟩
      · exact ⟨q, by simp, Or.inr h1⟩
      · exact ⟨r, by simp [hr], h1⟩
    · rintro ⟨r, hr, h1⟩
      refine ⟨h q (by simp), ?_⟩
      rcases List.mem_cons.1 hr with rfl | hr
      · rcases h1 with h1 | h1
        · exact Or.inl h1
        · exact Or.inr (Or.inl h1)
      · exact Or.inr (Or.inr ⟨r, hr, h1⟩)

/-- What the search finds is sound. -/
theorem sound_of_completes {pos : Pos} {c : Color} : ∀ {l : List Coord}, Spec.Completes n pos c l →
    ∃ q ∈ l, (∀ r, Adj q r → OnBoard n r → pos r ≠ some c.opp) ∧
      (Spec.safeCorners n pos c q = 2 ∨ Spec.safeCorners n pos c q = 3)
  | q :: l, ⟨h1, h2⟩ => by
    rcases h2 with h2 | h2 | h2
    · exact ⟨q, by simp, h1, Or.inl h2⟩
    · exact ⟨q, by simp, h1, Or.inr h2⟩
    · obtain ⟨r, hr, h⟩ := sound_of_completes h2
      exact ⟨r, by simp [hr], h⟩

/-- Where there are not both broken and sound corners, the search finds something iff there is a sound corner and no broken one. -/
theorem completes_iff {pos : Pos} {c : Color} {p : Coord}
    (h : ¬ ((∃ q, BrokenCorner n pos c p q) ∧ ∃ q, SoundCorner n pos c p q)) :
    Spec.Completes n pos c (emptyCorners n pos p) ↔ ∃ q, SoundCorner n pos c p q := by
  constructor
  · intro h1
    obtain ⟨q, hq, h2, h3⟩ := sound_of_completes h1
    obtain ⟨h4, h5, h6⟩ := mem_emptyCorners.1 hq
    exact ⟨q, h4, h5, h6, h2, h3⟩
  · rintro ⟨q, hq⟩
    have hb : ∀ q ∈ emptyCorners n pos p, ∀ r, Adj q r → OnBoard n r → pos r ≠ some c.opp := by
      intro b hb r h1 h2 h3
      obtain ⟨h4, h5, h6⟩ := mem_emptyCorners.1 hb
      exact h ⟨⟨b, h4, h5, h6, r, h1, h2, h3⟩, q, hq⟩
    rw [completes_of_none_broken hb]
    exact ⟨q, mem_emptyCorners.2 ⟨hq.1, hq.2.1, hq.2.2.1⟩, hq.2.2.2.2⟩

/-- Eyes that are not contested do not depend on the order of the corners. -/
theorem eye_iff {pos : Pos} {c : Color} {p : Coord} (h : ¬ Contested n pos c p) :
    Spec.Eye n pos c p ↔ pos p = none ∧ Surrounded n pos c p ∧ (Spec.safeCorners n pos c p = 4 ∨
      ((Spec.safeCorners n pos c p = 2 ∨ Spec.safeCorners n pos c p = 3) ∧ ∃ q, SoundCorner n pos c p q)) := by
  unfold Spec.Eye
  apply and_congr_right; intro h1
  apply and_congr_right; intro h2
  apply or_congr Iff.rfl
  apply and_congr_right; intro h3
  exact completes_iff (fun h4 => h ⟨h1, h2, h3, h4⟩)

theorem eye_sym {pos : Pos} {c : Color} {p : Coord} (hp : OnBoard n p) (h : ¬ Contested n pos c p) :
    Spec.Eye n (σ.pos pos) c (σ.map p) ↔ Spec.Eye n pos c p := by
  rw [eye_iff h, eye_iff (fun h' => h ((contested_sym σ pos c hp).1 h')), sym_pos_map, surrounded_sym σ pos c hp,
    safeCorners_sym σ pos c hp, sym_exists σ]
  simp only [soundCorner_sym σ pos c hp]

/-- The corner below and to the right is visited first. -/
theorem corners_head {p : Coord} (h : OnBoard n (p.1 + 1, p.2 + 1)) : ∃ l, Spec.corners n p = (p.1 + 1, p.2 + 1) :: l := by
  unfold Spec.corners Spec.diagonals
  rw [List.filterMap_cons_some (f := id) (a := some (p.1 + 1, p.2 + 1)) (b := (p.1 + 1, p.2 + 1)) rfl,
    List.filter_cons_of_pos (by simpa using h)]
  exact ⟨_, rfl⟩

theorem eye_of_head_sound {pos : Pos} {c : Color} {p : Coord} (h0 : pos p = none) (h1 : Surrounded n pos c p)
    (h2 : Spec.safeCorners n pos c p = 2 ∨ Spec.safeCorners n pos c p = 3) (h3 : SoundCorner n pos c p (p.1 + 1, p.2 + 1)) :
    Spec.Eye n pos c p := by
  refine ⟨h0, h1, Or.inr ⟨h2, ?_⟩⟩
  obtain ⟨l, hl⟩ := corners_head h3.1
  rw [hl, List.filter_cons_of_pos (by simpa using h3.2.2.1)]
  refine ⟨h3.2.2.2.1, ?_⟩
  rcases h3.2.2.2.2 with h | h
  · exact Or.inl h
  · exact Or.inr (Or.inl h)

theorem not_eye_of_head_broken {pos : Pos} {c : Color} {p : Coord}
    (h2 : Spec.safeCorners n pos c p = 2 ∨ Spec.safeCorners n pos c p = 3) (h3 : BrokenCorner n pos c p (p.1 + 1, p.2 + 1)) :
    ¬ Spec.Eye n pos c p := by
  rintro ⟨-, -, h | ⟨-, h⟩⟩
  · omega
  · obtain ⟨l, hl⟩ := corners_head h3.1
    rw [hl, List.filter_cons_of_pos (by simpa using h3.2.2.1)] at h
    obtain ⟨r, h4, h5, h6⟩ := h3.2.2.2
    exact h.1 r h4 h5 h6

/-- Every corner can be turned to the place visited first. -/
theorem turn_to_front {p q : Coord} (hp : OnBoard n p) (hq : OnBoard n q) (h : Diagonal p q) :
    ∃ τ : Symmetry n, τ.map q = ((τ.map p).1 + 1, (τ.map p).2 + 1) := by
  obtain ⟨x, y⟩ := p
  obtain ⟨a, b⟩ := q
  have hx : x < n.h := hp.1
  have hy : y < n.w := hp.2
  have ha : a < n.h := hq.1
  have hb : b < n.w := hq.2
  obtain ⟨h1 | h1, h2 | h2⟩ := h <;> simp only at h1 h2
  · refine ⟨Symmetry.same n, ?_⟩
    show (a, b) = (x + 1, y + 1)
    rw [← h1, ← h2]
  · refine ⟨Symmetry.mirror n, ?_⟩
    show (if b < n.w then (a, n.w - 1 - b) else (a, b)) =
      ((if y < n.w then (x, n.w - 1 - y) else (x, y)).1 + 1, (if y < n.w then (x, n.w - 1 - y) else (x, y)).2 + 1)
    rw [if_pos hb, if_pos hy]
    apply Prod.ext <;> simp only <;> omega
  · refine ⟨Symmetry.flip n, ?_⟩
    show (if a < n.h then (n.h - 1 - a, b) else (a, b)) =
      ((if x < n.h then (n.h - 1 - x, y) else (x, y)).1 + 1, (if x < n.h then (n.h - 1 - x, y) else (x, y)).2 + 1)
    rw [if_pos ha, if_pos hx]
    apply Prod.ext <;> simp only <;> omega
  · refine ⟨(Symmetry.flip n).trans (Symmetry.mirror n), ?_⟩
    show (Symmetry.mirror n).map (if a < n.h then (n.h - 1 - a, b) else (a, b)) =
      (((Symmetry.mirror n).map (if x < n.h then (n.h - 1 - x, y) else (x, y))).1 + 1,
        ((Symmetry.mirror n).map (if x < n.h then (n.h - 1 - x, y) else (x, y))).2 + 1)
    rw [if_pos ha, if_pos hx]
    show (if b < n.w then (n.h - 1 - a, n.w - 1 - b) else (n.h - 1 - a, b)) =
      ((if y < n.w then (n.h - 1 - x, n.w - 1 - y) else (n.h - 1 - x, y)).1 + 1,
        (if y < n.w then (n.h - 1 - x, n.w - 1 - y) else (n.h - 1 - x, y)).2 + 1)
    rw [if_pos hb, if_pos hy]
    apply Prod.ext <;> simp only <;> omega

/-- A contested point is an eye when the board is turned one way and none when it is turned another way. -/
theorem contested_turns {pos : Pos} {c : Color} {p : Coord} (hp : OnBoard n p) (h : Contested n pos c p) :
    (∃ τ : Symmetry n, Spec.Eye n (τ.pos pos) c (τ.map p)) ∧ ∃ τ : Symmetry n, ¬ Spec.Eye n (τ.pos pos) c (τ.map p) := by
  obtain ⟨h0, h1, h2, ⟨b, hb⟩, ⟨s, hs⟩⟩ := h
  constructor
  · obtain ⟨τ, ht⟩ := turn_to_front hp hs.1 hs.2.1
    refine ⟨τ, eye_of_head_sound (by rw [sym_pos_map]; exact h0) ((surrounded_sym τ pos c hp).2 h1)
      (by rw [safeCorners_sym τ pos c hp]; exact h2) ?_⟩
    rw [← ht]
    exact (soundCorner_sym τ pos c hp).2 hs
  · obtain ⟨τ, ht⟩ := turn_to_front hp hb.1 hb.2.1
    refine ⟨τ, not_eye_of_head_broken (by rw [safeCorners_sym τ pos c hp]; exact h2) ?_⟩
    rw [← ht]
    exact (brokenCorner_sym τ pos c hp).2 hb

end Model
