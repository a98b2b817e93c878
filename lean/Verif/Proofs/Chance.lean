import Verif.Spec.Chance
/-!
# The first of the wanted entries of a shuffled list is a wanted entry, all equally likely
-/

namespace Model
open Spec (mean meanOfOrders)

theorem ratSum_append : ∀ a b : List Rat, (a ++ b).sum = a.sum + b.sum
  | [], b => by simp; grind
  | x :: a, b => by rw [List.cons_append, List.sum_cons, List.sum_cons, ratSum_append a b]; grind

theorem ratSum_perm {a b : List Rat} (h : a.Perm b) : a.sum = b.sum := by
  induction h with
  | nil => rfl
  | cons x _ ih => rw [List.sum_cons, List.sum_cons, ih]
  | swap x y l => simp only [List.sum_cons]; grind
  | trans _ _ ih1 ih2 => exact ih1.trans ih2

theorem mean_perm {α : Type} {a b : List α} (h : a.Perm b) (f : α → Rat) : mean a f = mean b f := by
  unfold mean
  rw [ratSum_perm (h.map f), h.length_eq]

theorem mean_map {α β : Type} (k : α → β) (l : List α) (f : β → Rat) : mean (l.map k) f = mean l (fun x => f (k x)) := by
  unfold mean
  rw [List.map_map, List.length_map]; rfl

theorem mean_congr {α : Type} {l : List α} {f f' : α → Rat} (h : ∀ a ∈ l, f a = f' a) : mean l f = mean l f' := by
  unfold mean
  rw [List.map_congr_left h]

theorem ratSum_const {α : Type} (l : List α) (x : Rat) : (l.map (fun _ => x)).sum = l.length * x := by
  induction l with
  | nil => simp
  | cons a l ih => rw [List.map_cons, List.sum_cons, ih, List.length_cons, Rat.natCast_add]; grind

theorem mean_const {α : Type} {l : List α} (hl : l ≠ []) (x : Rat) : mean l (fun _ => x) = x := by
  unfold mean
  rw [ratSum_const]
  have : (l.length : Rat) ≠ 0 := by
    have := List.length_pos_iff.2 hl
    intro h
    have : l.length = 0 := by exact_mod_cast h
    omega
  grind

/-- A sum over a list by the number of times each value occurs. -/
theorem ratSum_count {α β : Type} [DecidableEq α] [BEq β] [LawfulBEq β] {C : List α} (hC : C.Nodup) (k : α → β) (hk : ∀ a b, k a = k b → a = b)
    (F : β → Rat) : ∀ (X : List β), (∀ x ∈ X, ∃ c ∈ C, x = k c) →
    (X.map F).sum = (C.map (fun c => (X.count (k c) : Rat) * F (k c))).sum
  | [], _ => by
    have : ∀ C : List α, (C.map (fun c => ((([] : List β).count (k c) : Nat) : Rat) * F (k c))).sum = 0 := by
      intro C
      induction C with
      | nil => rfl
      | cons a C ih => rw [List.map_cons, List.sum_cons, ih]; simp; grind
    rw [this]; rfl
  | x :: X, h => by
    obtain ⟨c, hc, rfl⟩ := h x (by simp)
    rw [List.map_cons, List.sum_cons, ratSum_count hC k hk F X (fun x hx => h x (by simp [hx]))]
    have key : ∀ C : List α, C.Nodup → c ∈ C →
        F (k c) + (C.map (fun d => (X.count (k d) : Rat) * F (k d))).sum =
          (C.map (fun d => ((k c :: X).count (k d) : Rat) * F (k d))).sum := by
      have other : ∀ C : List α, c ∉ C → (C.map (fun d => ((k c :: X).count (k d) : Rat) * F (k d))).sum =
          (C.map (fun d => (X.count (k d) : Rat) * F (k d))).sum := by
        intro C hn
        congr 1
        apply List.map_congr_left
        intro d hd
        rw [List.count_cons_of_ne]
        intro h
        rw [hk _ _ h] at hn
        exact hn hd
      intro C
      induction C with
      | nil => intro _ h; cases h
      | cons d C ih =>
        intro hn hm
        obtain ⟨h1, h2⟩ := List.nodup_cons.1 hn
        rw [List.map_cons, List.sum_cons, List.map_cons, List.sum_cons]
        by_cases hd : d = c
        · subst hd
          rw [other C h1, List.count_cons_self, Rat.natCast_add]
          grind
        · have := ih h2 (by
            rcases List.mem_cons.1 hm with h | h
            · exact absurd h.symm hd
            · exact h)
          rw [← this, List.count_cons_of_ne (fun h => hd (hk _ _ h).symm)]
          grind
    exact key C hC hc

section
variable {α : Type} [DecidableEq α]

/-- Exchange two elements. -/
def exchange (p q x : α) : α := if x = p then q else if x = q then p else x

theorem exchange_exchange (p q x : α) : exchange p q (exchange p q x) = x := by
  unfold exchange
  split
  · subst x; split
    · subst q; rfl
    · simp
  · split
    · subst x; simp
    · simp [*]

theorem exchange_inj (p q : α) {x y : α} (h : exchange p q x = exchange p q y) : x = y := by
  rw [← exchange_exchange p q x, h, exchange_exchange]

theorem exchange_perm {l : List α} (hl : l.Nodup) {p q : α} (hp : p ∈ l) (hq : q ∈ l) : (l.map (exchange p q)).Perm l := by
  rw [List.perm_ext_iff_of_nodup (hl.map (fun _ _ => exchange_inj p q)) hl]
  intro x
  have hmem : ∀ x, x ∈ l → exchange p q x ∈ l := by
    intro x hx
    unfold exchange
    split
    · exact hq
    · split
      · exact hp
      · exact hx
  rw [List.mem_map]
  constructor
  · rintro ⟨y, hy, rfl⟩; exact hmem y hy
  · intro hx; exact ⟨_, hmem x hx, exchange_exchange p q x⟩

theorem find_exchange {P : α → Bool} {p q : α} (hp : P p = true) (hq : P q = true) (v : List α) :
    (v.map (exchange p q)).find? P = (v.find? P).map (exchange p q) := by
  rw [List.find?_map]
  congr 2
  funext x
  unfold Function.comp exchange
  split
  · subst x; rw [hq, hp]
  · split
    · subst x; rw [hq, hp]
    · rfl

/-- Two wanted entries are first equally often. -/
theorem first_count {l : List α} (hl : l.Nodup) {P : α → Bool} {p q : α} (hp : p ∈ l) (hq : q ∈ l) (hPp : P p = true) (hPq : P q = true) :
    (l.permutations.map (List.find? P)).count (some p) = (l.permutations.map (List.find? P)).count (some q) := by
  have h1 : (l.permutations.map (List.find? P)).Perm ((l.permutations.map (List.find? P)).map (Option.map (exchange p q))) := by
    have h2 := ((exchange_perm hl hp hq).permutations).map (List.find? P)
    rw [← List.map_permutations, List.map_map] at h2
    refine h2.symm.trans (List.Perm.of_eq ?_)
    rw [List.map_map]
    apply List.map_congr_left
    intro v _
    exact find_exchange hPp hPq v
  rw [h1.count_eq]
  have : some p = Option.map (exchange p q) (some q) := by
    show some p = some (exchange p q q)
    congr 1
    unfold exchange
    split
    · rename_i h; exact h.symm
    · simp
  rw [this]
  apply List.count_map_of_injective
  intro a b hab
  cases a <;> cases b <;> simp at hab
  · rfl
  · rw [exchange_inj p q hab]

theorem first_nodup {l : List α} (hl : l.Nodup) (P : α → Bool) (F : Option α → Rat) : meanOfOrders l (fun v => F (v.find? P)) =
    if l.filter P = [] then F none else mean (l.filter P) (fun p => F (some p)) := by
  have hne : l.permutations ≠ [] := by
    intro h
    have := List.length_permutations l
    rw [h] at this
    exact absurd this.symm (Nat.factorial_ne_zero _)
  unfold meanOfOrders
  split
  · rename_i h0
    rw [mean_congr (f' := fun _ => F none), mean_const hne]
    intro v hv
    rw [List.find?_eq_none.2]
    intro x hx
    exact List.filter_eq_nil_iff.1 h0 x ((List.mem_permutations.1 hv).mem_iff.1 hx)
  · rename_i h0
    obtain ⟨c0, hc0⟩ := List.exists_mem_of_ne_nil _ h0
    let X := l.permutations.map (List.find? P)
    have hX : ∀ x ∈ X, ∃ c ∈ l.filter P, x = some c := by
      intro x hx
      obtain ⟨v, hv, rfl⟩ := List.mem_map.1 hx
      have hv := List.mem_permutations.1 hv
      cases hf : v.find? P with
      | none =>
        have := List.mem_filter.1 hc0
        exact absurd this.2 (List.find?_eq_none.1 hf c0 (hv.mem_iff.2 this.1))
      | some c => exact ⟨c, List.mem_filter.2 ⟨hv.mem_iff.1 (List.mem_of_find?_eq_some hf), List.find?_some hf⟩, rfl⟩
    have key : ∀ F : Option α → Rat, (X.map F).sum = (X.count (some c0) : Rat) * ((l.filter P).map (fun p => F (some p))).sum := by
      intro F
      rw [ratSum_count (hl.filter P) some (fun a b h => Option.some.inj h) F X hX]
      have : ∀ C : List α, (∀ c ∈ C, c ∈ l.filter P) →
          (C.map (fun c => (X.count (some c) : Rat) * F (some c))).sum = (X.count (some c0) : Rat) * (C.map (fun p => F (some p))).sum := by
        intro C
        induction C with
        | nil => intro _; simp
        | cons c C ih =>
          intro hC
          have h1 := List.mem_filter.1 (hC c (by simp))
          have h2 := List.mem_filter.1 hc0
          rw [List.map_cons, List.sum_cons, ih (fun d hd => hC d (by simp [hd])), List.map_cons, List.sum_cons,
            first_count hl h1.1 h2.1 h1.2 h2.2]
          grind
      exact this _ (fun _ h => h)
    have k1 := key F
    have k2 := key (fun _ => 1)
    rw [ratSum_const, ratSum_const] at k2
    have hXl : X.length = l.permutations.length := List.length_map ..
    have n1 : (l.permutations.length : Rat) ≠ 0 := by
      have := List.length_pos_iff.2 hne
      intro h
      have : l.permutations.length = 0 := by exact_mod_cast h
      omega
    have n2 : ((l.filter P).length : Rat) ≠ 0 := by
      have := List.length_pos_iff.2 h0
      intro h
      have : (l.filter P).length = 0 := by exact_mod_cast h
      omega
    rw [hXl] at k2
    have : mean l.permutations (fun v => F (v.find? P)) = (X.map F).sum / l.permutations.length := by
      unfold mean
      rw [List.map_map]; rfl
    rw [this, k1]
    unfold mean
    grind

end

/-- **The first wanted entry of a shuffled list**: each wanted entry is equally likely to be it. -/
theorem first_mean {α : Type} (l : List α) (P : α → Bool) (F : Option α → Rat) : meanOfOrders l (fun v => F (v.find? P)) =
    if l.filter P = [] then F none else mean (l.filter P) (fun p => F (some p)) := by
  have hl : l = l.zipIdx.map Prod.fst := (List.zipIdx_map_fst 0 l).symm
  have hn : (l.zipIdx).Nodup := by
    have h : ((l.zipIdx).map Prod.snd).Nodup := by
      rw [List.zipIdx_map_snd]
      exact List.nodup_range'
    exact List.Nodup.of_map _ h
  classical
  have h := first_nodup hn (fun x => P x.1) (fun o => F (o.map Prod.fst))
  have e1 : meanOfOrders l (fun v => F (v.find? P)) =
      meanOfOrders l.zipIdx (fun v => F ((v.find? (fun x => P x.1)).map Prod.fst)) := by
    unfold meanOfOrders
    conv => lhs; rw [hl]
    rw [← List.map_permutations, mean_map]
    apply mean_congr
    intro v _
    rw [List.find?_map]; rfl
  have e2 : l.filter P = (l.zipIdx.filter (fun x => P x.1)).map Prod.fst := by
    conv => lhs; rw [hl]
    rw [List.filter_map]; rfl
  rw [e1, h, e2, mean_map]
  simp only [List.map_eq_nil_iff]
  rfl

/-- The mean over a list repeated. -/
theorem mean_replicate {α : Type} (l : List α) (f : α → Rat) {k : Nat} (hk : 0 < k) : mean (List.replicate k l).flatten f = mean l f := by
  have h1 : ∀ k : Nat, ((List.replicate k l).flatten.map f).sum = k * (l.map f).sum := by
    intro k
    induction k with
    | zero => simp
    | succ k ih =>
      rw [List.replicate_succ, List.flatten_cons, List.map_append, ratSum_append, ih, Rat.natCast_add]
      grind
  have h2 : (List.replicate k l).flatten.length = k * l.length := by
    rw [List.length_flatten, List.map_replicate, List.sum_replicate_nat]
  unfold mean
  rw [h1, h2, Rat.natCast_mul]
  have : (k : Rat) ≠ 0 := by
    intro h
    have : k = 0 := by exact_mod_cast h
    omega
  by_cases hl : (l.length : Rat) = 0
  · rw [hl]; simp [Rat.div_def]
  · grind

end Model
