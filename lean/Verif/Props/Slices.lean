import Verif.Props.Exact
import Verif.Props.Flow
/-!
# C88: exact results of `Goban::from`, `chain_stones` at a coordinate and `pseudo_legals_vec`
-/

namespace Model
open Spec (OnBoard Adj Linked)

variable {dbg : Bool}

/-! ### `Goban::from` for every slice -/

theorem isqrt_eq {k n : Nat} (h1 : n * n ≤ k) (h2 : k < (n + 1) * (n + 1)) : Goban.isqrt k = n := by
  obtain ⟨h3, h4⟩ := isqrt_spec k
  have a : Goban.isqrt k < n + 1 := Nat.mul_self_lt_mul_self_iff.1 (by omega)
  have b : n < Goban.isqrt k + 1 := Nat.mul_self_lt_mul_self_iff.1 (by omega)
  omega

/-- The cells after the first `n²`: empty ones change nothing, a stone is off the board. -/
theorem ofSlice_tail {n : Nat} (hn : 1 ≤ n) {g : Goban} (hs : g.size = (n, n)) :
    ∀ (t : List MaybeColor) (k : Nat), n * n ≤ k → k + t.length ≤ 256 * n →
    ((∀ c ∈ t, c = none) → (t.zipIdx k).foldlM (Goban.ofSliceStep dbg n) g = .ok g) ∧
    (dbg = true → (∃ c ∈ t, c ≠ none) → (t.zipIdx k).foldlM (Goban.ofSliceStep dbg n) g = panic)
  | [], k, _, _ => ⟨fun _ => rfl, fun _ ⟨_, h, _⟩ => by cases h⟩
  | c :: t, k, hk, hl => by
    rw [List.length_cons] at hl
    rw [List.zipIdx_cons, List.foldlM_cons]
    obtain ⟨h1, h2⟩ := ofSlice_tail hn hs t (k + 1) (by omega) (by omega)
    have e2 : oneTo2dim (n, n) k = .ok (u8 (k / n), u8 (k % n)) := by
      unfold oneTo2dim
      rw [if_neg (by simp; omega)]
    cases c with
    | none =>
      have e : Goban.ofSliceStep dbg n g (none, k) = .ok g := by
        unfold Goban.ofSliceStep
        rw [e2]; rfl
      rw [e, ok_bind]
      refine ⟨fun h => h1 (fun c hc => h c (by simp [hc])), fun hd ⟨c, hc, hne⟩ => h2 hd ⟨c, ?_, hne⟩⟩
      rcases List.mem_cons.1 hc with rfl | hc
      · exact absurd rfl hne
      · exact hc
    | some c =>
      refine ⟨fun h => ?_, fun hd _ => ?_⟩
      · have := h (some c) (by simp)
        cases this
      · have hrow : u8 (k / n) = k / n := by
          unfold u8
          exact Nat.mod_eq_of_lt ((Nat.div_lt_iff_lt_mul (by omega)).2 (by omega))
        have hge : n ≤ k / n := (Nat.le_div_iff_mul_le (by omega)).2 hk
        have e : Goban.ofSliceStep dbg n g (some c, k) = panic := by
          unfold Goban.ofSliceStep
          rw [e2, ok_bind]
          show g.push dbg (u8 (k / n), u8 (k % n)) c = panic
          unfold Goban.push debugAssert
          rw [hs, hrow, hd]
          simp only [Bool.true_and]
          rw [if_pos (by simpa using hge)]
          rfl
        rw [e]; rfl

/-- **C88** for `Goban::from` on any slice, `n` being the integer square root of its length. When `n` exceeds 19 it panics.
Otherwise, when the cells after the first `n²` are empty it gives the `n × n` board with the first `n²` cells, and when one of
them is a stone a debug build panics. -/
theorem C88_from_slice {n : Nat} {l : List MaybeColor} (h1 : n * n ≤ l.length) (h2 : l.length < (n + 1) * (n + 1)) :
    (19 < n → Goban.ofSlice dbg l = panic) ∧
    (n ≤ 19 → (∀ c ∈ l.drop (n * n), c = none) → ∃ g m, Goban.ofSlice dbg l = .ok g ∧ Board dbg n m g ∧
      ∀ p, OnBoard n p → g.getColor p = .ok (l[p.1 * n + p.2]?).join) ∧
    (n ≤ 19 → dbg = true → (∃ c ∈ l.drop (n * n), c ≠ none) → Goban.ofSlice dbg l = panic) := by
  have hi := isqrt_eq h1 h2
  have main : n ≤ 19 → ∃ g m, Board dbg n m g ∧ (∀ p, OnBoard n p → g.getColor p = .ok (l[p.1 * n + p.2]?).join) ∧
      Goban.ofSlice dbg l = ((l.drop (n * n)).zipIdx (n * n)).foldlM (Goban.ofSliceStep dbg n) g := by
    intro hn
    obtain ⟨g, m, e, hb, hv⟩ := C23_from_slice (dbg := dbg) (l := l.take (n * n)) hn (by rw [List.length_take]; omega)
    refine ⟨g, m, hb, ?_, ?_⟩
    · intro p hp
      have hlt : p.1 * n + p.2 < n * n := ix_square.1 (twoTo1_lt hb.inv.1.good hp)
      rw [hv p hp, List.getElem?_take_of_lt hlt]
    · unfold Goban.ofSlice at e ⊢
      dsimp only at e ⊢
      rw [List.length_take, Nat.min_eq_left h1, isqrt_sq] at e
      rw [hi]
      obtain ⟨g0, e0, e⟩ := bind_eq_ok e
      rw [e0, ok_bind]
      conv => lhs; rw [← List.take_append_drop (n * n) l]
      rw [List.zipIdx_append, List.foldlM_append, e, ok_bind, List.length_take, Nat.min_eq_left h1, Nat.zero_add,
        Nat.min_eq_left (by omega : n ≤ 255)]
  have tailOK : n ≤ 19 → ∀ {g : Goban} {m : Nat}, Board dbg n m g → 1 ≤ n →
      n * n + (l.drop (n * n)).length ≤ 256 * n := by
    intro hn g m hb h0
    rw [List.length_drop]
    have : (n + 1) * (n + 1) = n * n + 2 * n + 1 := by rw [Nat.add_mul, Nat.mul_add]; omega
    have : n * n ≤ 19 * n := Nat.mul_le_mul_right n hn
    omega
  have zero : n = 0 → l = [] := by
    rintro rfl
    exact List.eq_nil_of_length_eq_zero (by omega)
  refine ⟨?_, ?_, ?_⟩
  · intro hn
    unfold Goban.ofSlice
    rw [hi]
    unfold Goban.new assertM
    dsimp only
    rw [if_neg (by simp; omega)]
    rfl
  · intro hn ht
    obtain ⟨g, m, hb, hv, e⟩ := main hn
    refine ⟨g, m, ?_, hb, hv⟩
    rw [e]
    by_cases h0 : n = 0
    · rw [zero h0, List.drop_nil]; rfl
    · exact (ofSlice_tail (n := n) (by omega) hb.inv.1.size _ _ (Nat.le_refl _) (tailOK hn hb (by omega))).1 ht
  · intro hn hd ht
    obtain ⟨g, m, hb, hv, e⟩ := main hn
    rw [e]
    by_cases h0 : n = 0
    · rw [zero h0, List.drop_nil] at ht
      obtain ⟨_, h, _⟩ := ht
      cases h
    · exact (ofSlice_tail (n := n) (by omega) hb.inv.1.size _ _ (Nat.le_refl _) (tailOK hn hb (by omega))).2 hd ht

/-- **C88**, there and back: reading back the vector of any board gives the 19 × 19 board whose point number `i` shows the cell
number `i` of the board (hence an equal board for 19 × 19, and a different one otherwise). -/
theorem C88_round_trip {dbg' : Bool} {n : Dim} {m : Nat} {g : Goban} (h : Board dbg n m g) :
    ∃ v g' m', g.toVec = .ok v ∧ Goban.ofSlice dbg' v = .ok g' ∧ Board dbg' 19 m' g' ∧
      ∀ p, OnBoard 19 p → g'.getColor p = .ok (Spec.cell n g.view (p.1 * 19 + p.2)) := by
  obtain ⟨g', m', e, hb, hv⟩ := C23_from_slice (dbg := dbg') (n := 19) (l := (List.range 361).map (Spec.cell n g.view)) (by decide)
    (by simp)
  refine ⟨_, g', m', C83_to_vec h, e, hb, ?_⟩
  intro p hp
  have : p.1 * 19 + p.2 < 361 := by
    have h1 : p.1 < 19 := hp.1
    have h2 : p.2 < 19 := hp.2
    omega
  rw [hv p hp, List.getElem?_map, List.getElem?_range this]
  rfl

/-! ### `chain_stones` at a coordinate -/

/-- **C88** for `chain_stones` with a coordinate, on or off the board: the number `x * height + y` is used as a group index. If
that is a group of the board its stones are listed, each once; otherwise the call panics. -/
theorem C88_chain_stones_coord {n : Dim} {m : Nat} {g : Goban} (h : Board dbg n m g) (p : Coord) :
    (g.Live (p.1 * n.h + p.2) → ∃ l, g.chainStonesCoord dbg p = .ok l ∧ g.chainStonesIdx dbg (p.1 * n.h + p.2) = .ok l ∧
      (l.map Stone.coord).Nodup ∧ 0 < l.length ∧
      ∀ q, q ∈ l.map Stone.coord ↔ OnBoard n q ∧ g.boardAt (q.1 * n.h + q.2) = .ok (some (p.1 * n.h + p.2))) ∧
    (¬ g.Live (p.1 * n.h + p.2) → g.chainStonesCoord dbg p = panic) := by
  have hsz := h.inv.1.size
  have e : g.chainStonesCoord dbg p = g.chainStonesIdx dbg (p.1 * n.h + p.2) := by
    unfold Goban.chainStonesCoord twoTo1dim
    rw [hsz]; rfl
  rw [e]
  constructor
  · rintro ⟨grp, hk⟩
    obtain ⟨l, e1, h1, h2, _, h4⟩ := C47_chain_stones_partial h hk
    refine ⟨l, e1, e1, h1, ?_, h4⟩
    obtain ⟨i, hi⟩ := h.inv.1.rep.live_bd (live_ch.1 hk)
    have hx := h.inv.1.off _ _ hi
    have : ptOf n i ∈ l.map Stone.coord := by
      refine (h4 _).2 ⟨ptOf_onBoard hx, ?_⟩
      have : (ptOf n i).1 * n.h + (ptOf n i).2 = i := twoTo1_ptOf
      rw [this, h.inv.1.rep.boardAt (h.inv.1.lt361 hx), hi]
    cases l with
    | nil => cases this
    | cons _ _ => simp
  · intro hk
    unfold Goban.chainStonesIdx
    have : g.chains.chainAt (p.1 * n.h + p.2) = panic := by
      cases hc : g.chains.chainAt (p.1 * n.h + p.2) with
      | ok grp => exact absurd ⟨grp, hc⟩ hk
      | error er =>
        unfold Groups.chainAt at hc
        split at hc
        · cases hc
        · rw [← hc]
    rw [this]
    rfl

/-! ### `pseudo_legals_vec` -/

/-- **C88** for `pseudo_legals_vec`: a debug build panics on boards of more than 255 points; otherwise the empty points are
listed, each once, row by row. -/
theorem C88_pseudo_legals_vec {n : Dim} {m : Nat} {g : Game} (h : Reach dbg n m g) :
    g.pseudoLegalsVec dbg = if dbg = true ∧ 255 < n.area then panic
      else .ok ((Spec.points n).filter (fun p => g.goban.getColor p = .ok none)) := by
  split
  · rename_i hc
    unfold Game.pseudoLegalsVec mulU8
    dsimp only
    rw [h.inv.size, if_neg (by have := hc.2; unfold Dim.area at this; show ¬ n.h * n.w < 256; omega), if_pos hc.1]
    rfl
  · rename_i hc
    refine C18_pseudo_legals_vec h ?_
    cases dbg
    · exact Or.inr rfl
    · refine Or.inl ?_
      by_cases h' : 255 < n.area
      · exact absurd ⟨rfl, h'⟩ hc
      · omega

/-! ### Non-vacuity -/

example : okAnd (Goban.ofSlice true [some .black, none, none, some .white, none]) (fun g =>
    decide (g.size = (2, 2)) && decide (g.getColor (0, 0) = .ok (some .black)) && decide (g.getColor (1, 1) = .ok (some .white))) =
    true := by
  decide +kernel

/-- A stone after the first `n²` cells: a debug build panics. A release build does not. -/
example : Goban.ofSlice true [some .black, none, none, some .white, some .black] = panic ∧
    okAnd (Goban.ofSlice false [some .black, none, none, some .white, some .black]) (fun g =>
      decide (g.numberOfStones = (2, 1)) && decide (g.getColor (0, 0) = .ok (some .black))) = true := by
  constructor
  · exact (C88_from_slice (n := 2) (by decide) (by decide)).2.2 (by decide) rfl ⟨some .black, by simp, by simp⟩
  · decide +kernel

/-- Read back, a 2 × 2 board has its second row continue the first. -/
example : ∃ g, Board true 2 2 g ∧ okAnd (do let v ← g.toVec; Goban.ofSlice true v) (fun g' =>
    decide (g'.getColor (0, 0) = .ok (some .black)) && decide (g'.getColor (0, 3) = .ok (some .white)) &&
    decide (g'.getColor (1, 1) = .ok none)) = true :=
  mkBoard_exists (l := [.push 0 0 .black, .push 1 1 .white]) (by decide +kernel)

end Model
