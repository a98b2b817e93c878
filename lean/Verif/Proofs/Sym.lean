import Verif.Proofs.Seen
import Verif.Spec.Symmetry
/-!
# The rules of Go commute with the symmetries of the board
-/

namespace Model
open Spec (OnBoard Adj Linked HasLiberty NoDead place SameOn Pos Suicide State Forbidden Call Answer Symmetry)

variable {n : Dim} (σ : Symmetry n)

/-- Nothing is shown off the board. -/
def Clip (n : Dim) (pos : Pos) : Prop := ∀ q, ¬ OnBoard n q → pos q = none

theorem sym_onBoard_inv {q : Coord} : OnBoard n (σ.inv q) ↔ OnBoard n q := by rw [← σ.onBoard, σ.map_inv]

theorem sym_pos_map (pos : Pos) (p : Coord) : σ.pos pos (σ.map p) = pos p := by
  unfold Symmetry.pos; rw [σ.inv_map]

theorem sym_pos_symm (pos : Pos) : σ.symm.pos (σ.pos pos) = pos := by
  funext p
  show pos (σ.inv (σ.map p)) = _
  rw [σ.inv_map]

theorem sym_map_eq {p q : Coord} : σ.map p = σ.map q ↔ p = q := by
  constructor
  · intro h
    have := congrArg σ.inv h
    rwa [σ.inv_map, σ.inv_map] at this
  · rintro rfl; rfl

/-- Every point is the image of one. -/
theorem sym_forall {P : Coord → Prop} : (∀ q, P q) ↔ ∀ q, P (σ.map q) := by
  constructor
  · intro h q; exact h _
  · intro h q
    have := h (σ.inv q)
    rwa [σ.map_inv] at this

theorem sym_exists {P : Coord → Prop} : (∃ q, P q) ↔ ∃ q, P (σ.map q) := by
  constructor
  · rintro ⟨q, h⟩
    exact ⟨σ.inv q, by rwa [σ.map_inv]⟩
  · rintro ⟨q, h⟩; exact ⟨_, h⟩

theorem linked_sym_mp {pos : Pos} {p q : Coord} (hp : OnBoard n p) (h : Linked n pos p q) :
    Linked n (σ.pos pos) (σ.map p) (σ.map q) := by
  induction h with
  | refl => exact .refl _
  | @step q r hl ha hb hs ih =>
    exact .step ih ((σ.adj _ _ (linked_onBoard hl hp) hb).2 ha) ((σ.onBoard _).2 hb) (by rw [sym_pos_map, sym_pos_map, hs])

theorem linked_sym {pos : Pos} {p q : Coord} (hp : OnBoard n p) :
    Linked n (σ.pos pos) (σ.map p) (σ.map q) ↔ Linked n pos p q := by
  constructor
  · intro h
    have := linked_sym_mp σ.symm ((σ.onBoard p).2 hp) h
    rw [sym_pos_symm] at this
    rwa [show σ.symm.map = σ.inv from rfl, σ.inv_map, σ.inv_map] at this
  · exact linked_sym_mp σ hp

theorem hasLiberty_sym {pos : Pos} {p : Coord} (hp : OnBoard n p) : HasLiberty n (σ.pos pos) (σ.map p) ↔ HasLiberty n pos p := by
  unfold HasLiberty
  rw [sym_exists σ]
  apply exists_congr; intro q
  rw [sym_exists σ]
  apply exists_congr; intro r
  rw [linked_sym σ hp, σ.onBoard, sym_pos_map]
  constructor
  · rintro ⟨h1, h2, h3, h4⟩
    exact ⟨h1, (σ.adj _ _ (linked_onBoard h1 hp) h3).1 h2, h3, h4⟩
  · rintro ⟨h1, h2, h3, h4⟩
    exact ⟨h1, (σ.adj _ _ (linked_onBoard h1 hp) h3).2 h2, h3, h4⟩

theorem noDead_sym {pos : Pos} : NoDead n (σ.pos pos) ↔ NoDead n pos := by
  unfold NoDead
  rw [sym_forall σ]
  apply forall_congr'; intro p
  rw [σ.onBoard, sym_pos_map]
  apply forall_congr'; intro hp
  rw [hasLiberty_sym σ hp]

theorem place_sym (pos : Pos) (p : Coord) (c : Color) : place (σ.pos pos) (σ.map p) c = σ.pos (place pos p c) := by
  funext q
  unfold place Symmetry.pos
  dsimp only
  by_cases h : q = σ.map p
  · rw [if_pos h, h, if_pos (σ.inv_map p)]
  · rw [if_neg h, if_neg (fun h' => h (by rw [← h', σ.map_inv]))]

theorem clip_place {pos : Pos} (hc : Clip n pos) {p : Coord} (hp : OnBoard n p) (c : Color) : Clip n (place pos p c) := by
  intro q hq
  unfold place
  have h : q ≠ p := fun h => hq (h ▸ hp)
  rw [if_neg h]
  exact hc q hq

theorem clip_removeDead {pos : Pos} (hc : Clip n pos) (c : Color) : Clip n (Spec.removeDead n pos c) := by
  intro q hq
  unfold Spec.removeDead
  rw [hc q hq]
  split <;> rfl

theorem clip_sym {pos : Pos} (hc : Clip n pos) : Clip n (σ.pos pos) := fun _ hq => hc _ (fun h => hq ((sym_onBoard_inv σ).1 h))

theorem removeDead_sym {pos : Pos} (hc : Clip n pos) (c : Color) :
    Spec.removeDead n (σ.pos pos) c = σ.pos (Spec.removeDead n pos c) := by
  funext q
  by_cases hq : OnBoard n q
  · have hq' := (sym_onBoard_inv σ).2 hq
    show Spec.removeDead n (σ.pos pos) c q = Spec.removeDead n pos c (σ.inv q)
    unfold Spec.removeDead
    have e : HasLiberty n (σ.pos pos) q ↔ HasLiberty n pos (σ.inv q) := by
      rw [← hasLiberty_sym σ hq', σ.map_inv]
    rw [e]
    rfl
  · rw [clip_removeDead (clip_sym σ hc) c q hq]
    exact (clip_removeDead hc c _ (fun h => hq ((sym_onBoard_inv σ).1 h))).symm

theorem clip_play {pos : Pos} (hc : Clip n pos) (sa : Bool) {p : Coord} (hp : OnBoard n p) (c : Color) :
    Clip n (Spec.play n sa pos p c) := by
  unfold Spec.play
  dsimp only
  split
  · exact clip_removeDead (clip_removeDead (clip_place hc hp c) _) _
  · exact clip_removeDead (clip_place hc hp c) _

theorem play_sym {pos : Pos} (hc : Clip n pos) (sa : Bool) {p : Coord} (hp : OnBoard n p) (c : Color) :
    Spec.play n sa (σ.pos pos) (σ.map p) c = σ.pos (Spec.play n sa pos p c) := by
  unfold Spec.play
  dsimp only
  rw [place_sym, removeDead_sym σ (clip_place hc hp c), removeDead_sym σ (clip_removeDead (clip_place hc hp c) _)]
  cases sa <;> rfl

theorem suicide_sym {pos : Pos} (hc : Clip n pos) {p : Coord} (hp : OnBoard n p) (c : Color) :
    Suicide n (σ.pos pos) (σ.map p) c ↔ Suicide n pos p c := by
  unfold Suicide
  rw [place_sym, removeDead_sym σ (clip_place hc hp c), hasLiberty_sym σ hp]

theorem sameOn_sym {a b : Pos} : SameOn n (σ.pos a) (σ.pos b) ↔ SameOn n a b := by
  unfold SameOn
  rw [sym_forall σ]
  apply forall_congr'; intro q
  rw [σ.onBoard, sym_pos_map, sym_pos_map]

theorem captures_sym {pos : Pos} (hc : Clip n pos) {p : Coord} (hp : OnBoard n p) (c : Color) :
    Spec.Captures n (σ.pos pos) (σ.map p) c ↔ Spec.Captures n pos p c := by
  unfold Spec.Captures
  rw [place_sym, removeDead_sym σ (clip_place hc hp c), sym_exists σ]
  apply exists_congr; intro q
  rw [σ.onBoard, sym_pos_map, sym_pos_map]

theorem firsts_sym (l : List Pos) : Spec.firsts n (l.map σ.pos) = (Spec.firsts n l).map σ.pos := by
  suffices h : ∀ (l : List Pos), Spec.firsts n (l.reverse.map σ.pos) = (Spec.firsts n l.reverse).map σ.pos by
    have := h l.reverse
    rwa [List.reverse_reverse] at this
  intro l
  induction l with
  | nil => rfl
  | cons x l ih =>
    rw [List.reverse_cons, List.map_append, List.map_cons, List.map_nil, firsts_append, firsts_append, ih]
    have : (∃ q ∈ (Spec.firsts n l.reverse).map σ.pos, SameOn n q (σ.pos x)) ↔ ∃ q ∈ Spec.firsts n l.reverse, SameOn n q x := by
      simp only [List.mem_map]
      constructor
      · rintro ⟨_, ⟨q, hq, rfl⟩, h⟩; exact ⟨q, hq, (sameOn_sym σ).1 h⟩
      · rintro ⟨q, hq, h⟩; exact ⟨_, ⟨q, hq, rfl⟩, (sameOn_sym σ).2 h⟩
    by_cases h : ∃ q ∈ Spec.firsts n l.reverse, SameOn n q x
    · rw [if_pos h, if_pos (this.2 h)]
    · rw [if_neg h, if_neg (fun h' => h (this.1 h'))]; simp

/-- The state seen after applying the symmetry to the board. -/
def symState (s : State) : State :=
  { s with pos := σ.pos s.pos, before := s.before.map σ.pos, played := s.played.map σ.pos }

theorem superKoSeen_sym {sa : Bool} {s : State} (hc : Clip n s.pos) {p : Coord} (hp : OnBoard n p) :
    Spec.SuperKoSeen n sa (symState σ s) (σ.map p) ↔ Spec.SuperKoSeen n sa s p := by
  unfold Spec.SuperKoSeen Spec.SuperKo
  show 3 ≤ (Spec.firsts n (s.played.map σ.pos)).length ∧ Spec.Captures n (σ.pos s.pos) (σ.map p) s.turn ∧
    (∃ b ∈ s.played.map σ.pos, SameOn n (Spec.play n sa (σ.pos s.pos) (σ.map p) s.turn) b) ↔ _
  rw [firsts_sym, List.length_map, captures_sym σ hc hp, play_sym σ hc sa hp]
  simp only [List.mem_map]
  apply and_congr_right; intro _
  apply and_congr_right; intro _
  constructor
  · rintro ⟨_, ⟨q, hq, rfl⟩, h⟩; exact ⟨q, hq, (sameOn_sym σ).1 h⟩
  · rintro ⟨q, hq, h⟩; exact ⟨_, ⟨q, hq, rfl⟩, (sameOn_sym σ).2 h⟩

theorem onlyLiberty_sym {pos : Pos} {q p : Coord} (hq : OnBoard n q) :
    Spec.OnlyLiberty n (σ.pos pos) (σ.map q) (σ.map p) ↔ Spec.OnlyLiberty n pos q p := by
  unfold Spec.OnlyLiberty
  rw [sym_forall σ]
  apply forall_congr'; intro r
  rw [σ.onBoard, sym_pos_map, sym_map_eq]
  apply forall_congr'; intro hr
  apply forall_congr'; intro _
  apply imp_congr _ Iff.rfl
  rw [sym_exists σ]
  apply exists_congr; intro q'
  rw [linked_sym σ hq]
  apply and_congr_right; intro hl
  exact σ.adj _ _ (linked_onBoard hl hq) hr

theorem koSeen_sym {s : State} {p : Coord} (hp : OnBoard n p) : Spec.KoSeen n (symState σ s) (σ.map p) ↔ Spec.KoSeen n s p := by
  unfold Spec.KoSeen
  show (∃ b, s.before.map σ.pos = some b ∧ ∀ r, OnBoard n r → ((b r = some s.turn ∧ σ.pos s.pos r = none) ↔ r = σ.map p)) ∧
    (∀ q, Adj (σ.map p) q → OnBoard n q → σ.pos s.pos q ≠ none → Spec.OnlyLiberty n (σ.pos s.pos) q (σ.map p) →
      ∀ t, Linked n (σ.pos s.pos) q t → t = q) ↔ _
  apply and_congr
  · cases s.before with
    | none => simp
    | some b =>
      simp only [Option.map_some, Option.some.injEq, exists_eq_left']
      rw [sym_forall σ]
      apply forall_congr'; intro r
      rw [σ.onBoard, sym_pos_map, sym_pos_map, sym_map_eq]
  · rw [sym_forall σ]
    apply forall_congr'; intro q
    rw [σ.onBoard, sym_pos_map]
    constructor
    · intro h h1 h2 h3 h4 t ht
      have := h ((σ.adj _ _ hp h2).2 h1) h2 h3 ((onlyLiberty_sym σ h2).2 h4) (σ.map t) ((linked_sym σ h2).2 ht)
      exact (sym_map_eq σ).1 this
    · intro h h1 h2 h3 h4
      rw [sym_forall σ]
      intro t ht
      rw [sym_map_eq]
      exact h ((σ.adj _ _ hp h2).1 h1) h2 h3 ((onlyLiberty_sym σ h2).1 h4) t ((linked_sym σ h2).1 ht)

/-- Calls name points of the board. -/
def CallOn (n : Dim) : Call → Prop
  | .play p => OnBoard n p
  | _ => True

open Classical in
theorem answerSeen_sym {r : Forbidden} (hr : r.fillEye = false) {s : State} (hc : Clip n s.pos) {c : Call} (hcall : CallOn n c) :
    Spec.answerSeen n r (symState σ s) (σ.call c) = Spec.answerSeen n r s c := by
  cases c with
  | resume => rfl
  | komi => rfl
  | pass => rfl
  | resign c => rfl
  | play p =>
    have hp : OnBoard n p := hcall
    show (if s.passes = 2 then Answer.paused else if σ.pos s.pos (σ.map p) ≠ none then .occupied
      else if r.suicide = true ∧ Suicide n (σ.pos s.pos) (σ.map p) s.turn then .suicide
      else if r.ko = true ∧ Spec.KoSeen n (symState σ s) (σ.map p) then .ko
      else if r.fillEye = true ∧ Spec.Eye n (σ.pos s.pos) s.turn (σ.map p) then .fillEye
      else if r.superko = true ∧ Spec.SuperKoSeen n (!r.suicide) (symState σ s) (σ.map p) then .ko else .ok) = _
    rw [suicide_sym σ hc hp, koSeen_sym σ hp, superKoSeen_sym σ hc hp, sym_pos_map]
    unfold Spec.answerSeen
    simp only [hr, Bool.false_eq_true, false_and, if_false]

/-- The symmetry permutes the points of the board. -/
theorem points_sym : ((Spec.points n).map σ.map).Perm (Spec.points n) := by
  apply (List.perm_ext_iff_of_nodup _ (points_nodup n)).2
  · intro p
    rw [List.mem_map, mem_points]
    constructor
    · rintro ⟨q, hq, rfl⟩; exact (σ.onBoard q).2 (mem_points.1 hq)
    · intro hp; exact ⟨σ.inv p, mem_points.2 ((sym_onBoard_inv σ).2 hp), σ.map_inv p⟩
  · exact List.pairwise_map.2 ((points_nodup n).imp (fun h h' => h ((sym_map_eq σ).1 h')))

theorem filter_length_sym (P : Coord → Bool) :
    ((Spec.points n).filter P).length = ((Spec.points n).filter (fun p => P (σ.map p))).length := by
  rw [← (points_sym σ).filter P |>.length_eq, List.filter_map, List.length_map]
  rfl

theorem vanished_sym (a b : Pos) (x : Color) : Spec.vanished n (σ.pos a) (σ.pos b) x = Spec.vanished n a b x := by
  unfold Spec.vanished
  rw [filter_length_sym σ]
  simp only [sym_pos_map]

theorem count_sym (a : Pos) (x : Option Color) : Spec.count n (σ.pos a) x = Spec.count n a x := by
  unfold Spec.count
  rw [filter_length_sym σ]
  simp only [sym_pos_map]

theorem touches_sym {pos : Pos} {p : Coord} (hp : OnBoard n p) (c : Color) :
    Spec.Touches n (σ.pos pos) (σ.map p) c ↔ Spec.Touches n pos p c := by
  unfold Spec.Touches
  rw [sym_exists σ]
  apply exists_congr; intro q
  rw [sym_exists σ]
  apply exists_congr; intro r
  rw [linked_sym σ hp, σ.onBoard, sym_pos_map]
  constructor
  · rintro ⟨h1, h2, h3, h4⟩
    exact ⟨h1, (σ.adj _ _ (linked_onBoard h1 hp) h3).1 h2, h3, h4⟩
  · rintro ⟨h1, h2, h3, h4⟩
    exact ⟨h1, (σ.adj _ _ (linked_onBoard h1 hp) h3).2 h2, h3, h4⟩

theorem territory_sym (pos : Pos) (c : Color) (p : Coord) :
    Spec.Territory n (σ.pos pos) c (σ.map p) ↔ Spec.Territory n pos c p := by
  unfold Spec.Territory
  rw [σ.onBoard, sym_pos_map]
  apply and_congr_right; intro hp
  rw [touches_sym σ hp, touches_sym σ hp]

theorem territorySize_sym (pos : Pos) (c : Color) : Spec.territorySize n (σ.pos pos) c = Spec.territorySize n pos c := by
  unfold Spec.territorySize
  rw [filter_length_sym σ]
  congr 1
  apply List.filter_congr
  intro p _
  rw [decide_eq_decide]
  exact territory_sym σ pos c p

theorem apply_sym {r : Forbidden} {s : State} (hc : Clip n s.pos) {c : Call} (hcall : CallOn n c) :
    Spec.apply n r (symState σ s) (σ.call c) = symState σ (Spec.apply n r s c) := by
  cases c with
  | resume => rfl
  | komi => rfl
  | pass => rfl
  | resign c => rfl
  | play p =>
    have hp : OnBoard n p := hcall
    unfold Spec.apply symState Symmetry.call
    dsimp only
    rw [play_sym σ hc _ hp, place_sym, vanished_sym, vanished_sym]
    simp

theorem clip_apply {r : Forbidden} {s : State} (hc : Clip n s.pos) {c : Call} (hcall : CallOn n c) :
    Clip n (Spec.apply n r s c).pos := by
  cases c with
  | resume => exact hc
  | komi => exact hc
  | pass => exact hc
  | resign c => exact hc
  | play p => exact clip_play hc _ hcall _

theorem stepSeen_sym {r : Forbidden} (hr : r.fillEye = false) {s : State} (hc : Clip n s.pos) {c : Call} (hcall : CallOn n c) :
    Spec.stepSeen n r (symState σ s) (σ.call c) = ((Spec.stepSeen n r s c).1, symState σ (Spec.stepSeen n r s c).2) := by
  unfold Spec.stepSeen
  rw [answerSeen_sym σ hr hc hcall, apply_sym σ hc hcall]
  split <;> rfl

theorem clip_stepSeen {r : Forbidden} {s : State} (hc : Clip n s.pos) {c : Call} (hcall : CallOn n c) :
    Clip n (Spec.stepSeen n r s c).2.pos := by
  unfold Spec.stepSeen
  split
  · exact clip_apply hc hcall
  · exact hc

/-- The abstract game on the turned or reflected board. -/
theorem runSeen_sym {r : Forbidden} (hr : r.fillEye = false) : ∀ (cs : List Call) (s : State), Clip n s.pos → (∀ c ∈ cs, CallOn n c) →
    Spec.runSeen n r (symState σ s) (cs.map σ.call) = ((Spec.runSeen n r s cs).1, symState σ (Spec.runSeen n r s cs).2)
  | [], s, _, _ => rfl
  | c :: cs, s, hc, h => by
    rw [List.map_cons]
    unfold Spec.runSeen
    rw [stepSeen_sym σ hr hc (h c (by simp))]
    dsimp only
    rw [runSeen_sym hr cs _ (clip_stepSeen hc (h c (by simp))) (fun c hc => h c (by simp [hc]))]

end Model
