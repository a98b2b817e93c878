import Verif.Props.Exact
import Verif.Props.Flow
/-!
# Legal moves on boards that are not square: C91
-/

namespace Model
open Spec (OnBoard Adj Linked HasLiberty NoDead place SameOn Pos)

variable {dbg : Bool} {n : Dim} {m : Nat} {g : Game}

/-- What the listings of empty points go through: of each of the first `w` rows its points, all of them `h / w` times. -/
def _root_.Spec.scan (n : Dim) : List Coord := (List.range n.w).flatMap (fun x => (List.range n.h).map (fun j => (x, j % n.w)))

theorem range_mul (h : Nat) : ∀ w, List.range (h * w) = (List.range w).flatMap (fun x => (List.range h).map (fun j => x * h + j))
  | 0 => by simp
  | w + 1 => by
    rw [Nat.mul_succ, List.range_add, range_mul h w, List.range_succ, List.flatMap_append]
    simp [Nat.mul_comm]

theorem filter_flatMap' {α β} (f : α → List β) (P : β → Bool) (l : List α) :
    (l.flatMap f).filter P = l.flatMap (fun a => (f a).filter P) := by
  induction l with
  | nil => rfl
  | cons a l ih => rw [List.flatMap_cons, List.filter_append, ih, List.flatMap_cons]

theorem flatMap_congr' {α β} {f f' : α → List β} {l : List α} (h : ∀ a ∈ l, f a = f' a) : l.flatMap f = l.flatMap f' := by
  induction l with
  | nil => rfl
  | cons a l ih =>
    rw [List.flatMap_cons, List.flatMap_cons, h a (by simp), ih (fun b hb => h b (by simp [hb]))]

theorem map_flatMap' {α β γ} (f : α → List β) (k : β → γ) (l : List α) : (l.flatMap f).map k = l.flatMap (fun a => (f a).map k) := by
  induction l with
  | nil => rfl
  | cons a l ih => rw [List.flatMap_cons, List.map_append, ih, List.flatMap_cons]

theorem mem_scan (hn : n.Good) {p : Coord} : p ∈ Spec.scan n ↔ OnBoard n p ∧ p.1 < n.w := by
  obtain ⟨x, y⟩ := p
  unfold Spec.scan
  simp only [List.mem_flatMap, List.mem_map, List.mem_range, Prod.mk.injEq]
  constructor
  · rintro ⟨a, ha, j, hj, rfl, rfl⟩
    have hw := hn.w_le (by omega)
    exact ⟨⟨show a < n.h by omega, Nat.mod_lt _ (by omega)⟩, ha⟩
  · rintro ⟨⟨h1, h2⟩, h3⟩
    have h1 : x < n.h := h1
    have h2 : y < n.w := h2
    have hw := hn.w_le (by omega)
    exact ⟨x, h3, y, by omega, rfl, Nat.mod_eq_of_lt h2⟩

/-- **C91**, `pseudo_legals` and `get_empty_coords`: of each of the first `w` rows, first its empty points, then all its points,
occupied or not, `h / w - 1` times. -/
theorem C91_empty_coords {b : Goban} (h : Board dbg n m b) : b.getEmptyCoords = .ok ((List.range n.w).flatMap (fun x =>
    ((List.range n.h).filter (fun j => decide (n.w ≤ j ∨ b.getColor (x, j) = .ok none))).map (fun j => (x, j % n.w)))) := by
  have hI := h.inv.1
  rw [C83_empty_coords h, range_mul, filter_flatMap', map_flatMap']
  congr 1
  apply flatMap_congr'
  intro x hx
  have hx := List.mem_range.1 hx
  have h19 := hI.good.w19
  rw [List.filter_map, List.map_map]
  have hj : ∀ j, j < n.h → (x * n.h + j) / n.h = x ∧ (x * n.h + j) % n.h = j := by
    intro j hj
    constructor
    · rw [Nat.mul_comm, Nat.mul_add_div (by omega), Nat.div_eq_of_lt hj]; rfl
    · rw [Nat.mul_comm, Nat.mul_add_mod, Nat.mod_eq_of_lt hj]
  have e1 : (List.range n.h).filter ((fun i => decide (Spec.cell n b.view i = none)) ∘ fun j => x * n.h + j) =
      (List.range n.h).filter (fun j => decide (n.w ≤ j ∨ b.getColor (x, j) = .ok none)) := by
    apply filter_congr'
    intro j hj'
    have hj' := List.mem_range.1 hj'
    show decide (Spec.cell n b.view (x * n.h + j) = none) = _
    rw [decide_eq_decide]
    unfold Spec.cell
    rw [(hj j hj').1, (hj j hj').2]
    by_cases hb : j < n.w
    · have hwl := hI.good.w_le (by omega)
      have hO : OnBoard n (x, j) := ⟨by show x < n.h; omega, hb⟩
      rw [if_pos hO, hI.getColor_view hO]
      constructor
      · intro h; exact Or.inr (by rw [h])
      · rintro (h | h)
        · omega
        · exact Except.ok.inj h
    · rw [if_neg (show ¬ OnBoard n (x, j) from fun h => hb h.2)]
      exact ⟨fun _ => Or.inl (by omega), fun _ => rfl⟩
  rw [e1]
  apply List.map_congr_left
  intro j hj'
  have hj' := List.mem_range.1 (List.mem_filter.1 hj').1
  show Spec.listed n (x * n.h + j) = _
  unfold Spec.listed
  rw [(hj j hj').1, Nat.mod_eq_of_lt (show x < 256 by omega)]
  have hd : (x * n.h + j) % n.w = j % n.w := by
    obtain ⟨k, hk⟩ := hI.good.fits
    rw [hk, show x * (n.w * k) = n.w * (x * k) by rw [Nat.mul_left_comm], Nat.mul_add_mod]
  rw [hd, Nat.mod_eq_of_lt (show j % n.w < 256 from Nat.lt_trans (Nat.mod_lt _ (by omega)) (by omega))]

theorem pseudoLegals_mem (h : Reach dbg n m g) {ps : List Coord} (e : g.pseudoLegals = .ok ps) :
    (∀ p ∈ ps, OnBoard n p ∧ p.1 < n.w) ∧ ∀ p, OnBoard n p → p.1 < n.w → g.goban.getColor p = .ok none → p ∈ ps := by
  unfold Game.pseudoLegals at e
  rw [C91_empty_coords h.spec.board] at e
  cases e
  constructor
  · intro p hp
    obtain ⟨a, ha, hp⟩ := List.mem_flatMap.1 hp
    obtain ⟨j, hj, rfl⟩ := List.mem_map.1 hp
    exact (mem_scan h.inv.good).1 (List.mem_flatMap.2 ⟨a, ha, List.mem_map.2 ⟨j, (List.mem_filter.1 hj).1, rfl⟩⟩)
  · rintro ⟨x, y⟩ ⟨h1, h2⟩ h3 h4
    have h1 : x < n.h := h1
    have h2 : y < n.w := h2
    have h3 : x < n.w := h3
    have := h.inv.good.w_le (by omega)
    exact List.mem_flatMap.2 ⟨x, List.mem_range.2 h3, List.mem_map.2 ⟨y, List.mem_filter.2 ⟨List.mem_range.2 (by omega), by
      rw [decide_eq_true_eq]; exact Or.inr h4⟩, by rw [Nat.mod_eq_of_lt h2]⟩⟩

/-- Of the listed points the empty ones with some property are those of the first `w` rows, each `h / w` times. -/
theorem emptyCoords_filter {b : Goban} (h : Board dbg n m b) {L : List Coord} (e : b.getEmptyCoords = .ok L) {Q : Coord → Bool}
    (hQ : ∀ p, OnBoard n p → Q p = true → b.getColor p = .ok none) : L.filter Q = (Spec.scan n).filter Q := by
  have hI := h.inv.1
  rw [C91_empty_coords h] at e
  cases e
  unfold Spec.scan
  rw [filter_flatMap', filter_flatMap']
  apply flatMap_congr'
  intro x hx
  have hx := List.mem_range.1 hx
  rw [List.filter_map, List.filter_map, List.filter_filter]
  congr 1
  apply filter_congr'
  intro j hj
  have hj := List.mem_range.1 hj
  rw [Bool.eq_iff_iff, Bool.and_eq_true]
  simp only [Function.comp, decide_eq_true_eq]
  refine ⟨fun h => h.1, fun h => ⟨h, ?_⟩⟩
  by_cases hjw : n.w ≤ j
  · exact Or.inl hjw
  · have := hI.good.w_le (by omega)
    have h2 := hQ (x, j % n.w) ⟨by show x < n.h; omega, Nat.mod_lt _ (by omega)⟩ h
    rw [Nat.mod_eq_of_lt (by omega)] at h2
    exact Or.inr h2

theorem filter_mod (w : Nat) (P : Nat → Bool) : ∀ k, ((List.range (w * k)).filter (fun j => P (j % w))).length =
    k * ((List.range w).filter P).length
  | 0 => by simp
  | k + 1 => by
    rw [Nat.mul_succ, List.range_add, List.filter_append, List.length_append, filter_mod w P k, List.filter_map, List.length_map,
      Nat.succ_mul]
    congr 2
    apply filter_congr'
    intro j hj
    show P ((w * k + j) % w) = P j
    rw [Nat.mul_add_mod, Nat.mod_eq_of_lt (List.mem_range.1 hj)]

theorem length_flatMap_mul {α β γ} {f : α → List β} {f' : α → List γ} {k : Nat} : ∀ {l : List α},
    (∀ a ∈ l, (f a).length = k * (f' a).length) → (l.flatMap f).length = k * (l.flatMap f').length
  | [], _ => by simp
  | a :: l, h => by
    rw [List.flatMap_cons, List.flatMap_cons, List.length_append, List.length_append, h a (by simp),
      length_flatMap_mul (fun b hb => h b (by simp [hb])), Nat.mul_add]

theorem flatMap_nil' {α β} {f : α → List β} : ∀ {l : List α}, (∀ a ∈ l, f a = []) → l.flatMap f = []
  | [], _ => rfl
  | a :: l, h => by rw [List.flatMap_cons, h a (by simp), flatMap_nil' (fun b hb => h b (by simp [hb]))]; rfl

theorem scan_filter_length (hn : n.Good) (Q : Coord → Bool) :
    ((Spec.scan n).filter Q).length = n.h / n.w * ((Spec.points n).filter (fun p => decide (p.1 < n.w) && Q p)).length := by
  obtain ⟨k, hk⟩ := hn.fits
  rcases Nat.eq_zero_or_pos n.w with hw | hw
  · unfold Spec.scan; rw [hw]; simp
  have hd : n.h / n.w = k := by rw [hk, Nat.mul_div_cancel_left _ hw]
  rw [hd]
  unfold Spec.scan Spec.points
  rw [filter_flatMap', filter_flatMap']
  rcases Nat.eq_zero_or_pos n.h with hh | hh
  · rw [hh]; simp
  have hle := hn.w_le hh
  have e : List.range n.h = List.range n.w ++ (List.range (n.h - n.w)).map (n.w + ·) := by
    rw [← List.range_add]; congr 1; omega
  rw [show (List.range n.h).flatMap (fun a => ((List.range n.w).map (fun y => (a, y))).filter (fun p => decide (p.1 < n.w) && Q p)) =
      (List.range n.w).flatMap (fun a => ((List.range n.w).map (fun y => (a, y))).filter Q) by
    rw [e, List.flatMap_append, flatMap_nil' (l := (List.range (n.h - n.w)).map (n.w + ·)), List.append_nil]
    · apply flatMap_congr'
      intro a ha
      have ha := List.mem_range.1 ha
      apply filter_congr'
      intro p hp
      obtain ⟨y, _, rfl⟩ := List.mem_map.1 hp
      rw [decide_eq_true ha]; rfl
    · intro a ha
      obtain ⟨b, _, rfl⟩ := List.mem_map.1 ha
      rw [List.filter_eq_nil_iff]
      intro p hp
      obtain ⟨y, _, rfl⟩ := List.mem_map.1 hp
      rw [decide_eq_false (show ¬ n.w + b < n.w by omega)]; simp]
  apply length_flatMap_mul
  intro a _
  rw [List.filter_map, List.filter_map, List.length_map, List.length_map, hk]
  exact filter_mod n.w (fun j => Q (a, j)) k

/-- **C91**, `legals_by(f)`: the points of the first `w` rows whose check under `f` finds nothing, row by row, each row `h / w` times. -/
theorem C91_legals_by (h : Reach dbg n m g) (r : IllegalRules) : Safe (65535 ≤ m) (g.legalsBy dbg r) (fun l =>
    l = (Spec.scan n).filter (fun p => g.goban.getColor p = .ok none ∧ g.checkPointBy dbg p r = .ok none)) := by
  have hI := h.inv
  unfold Game.legalsBy Game.pseudoLegals
  obtain ⟨L, eL, hmem⟩ := getEmptyCoords_any hI
  rw [eL, ok_bind]
  have hmap : Safe (65535 ≤ m) (L.mapM (fun c => do
      let e ← g.checkPointBy dbg c r; .ok (if e.isNone then some c else none)))
      (fun res => res = L.map (fun c => if g.checkPointBy dbg c r = .ok none then some c else none)) := by
    apply mapM_safe
    intro p hp
    rcases (h.checkPointBy_total (dbg := dbg) (hmem p hp) r).weaken h.full with ⟨e, he, _⟩ | ⟨e, hfull⟩
    · rw [he, ok_bind]
      refine Safe.ok ?_
      cases e <;> simp
    · exact Or.inr ⟨by rw [e]; rfl, hfull⟩
  apply Safe.bind hmap
  intro res hres
  refine Safe.ok ?_
  rw [hres, filterMap_ite, emptyCoords_filter h.spec.board eL (fun p _ hQ => checkPointBy_empty (of_decide_eq_true hQ))]
  apply filter_congr'
  intro p _
  rw [decide_eq_decide]
  exact ⟨fun h => ⟨checkPointBy_empty h, h⟩, fun h => h.2⟩

/-- What `try_play` accepts, in terms of `check_point`. -/
theorem accepts_iff (h : Reach dbg n m g) (hps : g.passes ≠ 2) (hm : m < 65535) {p : Coord} (hp : OnBoard n p) :
    g.Accepts dbg p ↔ g.goban.getColor p = .ok none ∧ g.checkPoint dbg p = .ok none := by
  obtain ⟨x, y⟩ := p
  unfold Game.checkPoint
  unfold Game.Accepts
  rw [h.tryPlay_play hp, if_neg hps]
  constructor
  · rintro ⟨g', h2⟩
    by_cases h1 : g.goban.view (x, y) ≠ none
    · rw [if_pos h1] at h2; cases h2
    · rw [if_neg h1] at h2
      refine ⟨(getColor_none h.inv hp).2 (by simpa using h1), ?_⟩
      obtain ⟨e, e1, h2⟩ := bind_eq_ok h2
      cases e with
      | none => exact e1
      | some e => cases h2
  · rintro ⟨h1, h2⟩
    rw [if_neg (by simpa using (getColor_none h.inv hp).1 h1), h2, ok_bind]
    dsimp only
    obtain ⟨g', e', _⟩ := (h.play_spec (dbg := dbg) hp h1).total (by omega)
    exact ⟨g', by rw [e']; rfl⟩

/-- **C17**: adding flags can only shrink `legals_by`. -/
theorem C17_legals_mono (h : Reach dbg n m g) {r r' : IllegalRules} (h1 : r.ko = true → r'.ko = true)
    (h2 : r.superko = true → r'.superko = true) (h3 : r.suicide = true → r'.suicide = true)
    (h4 : r.fillEye = true → r'.fillEye = true) {l l' : List Coord} (e : g.legalsBy dbg r = .ok l)
    (e' : g.legalsBy dbg r' = .ok l') : l'.Sublist l := by
  rw [(C91_legals_by h r).of_ok e, (C91_legals_by h r').of_ok e']
  apply filter_sublist_of
  intro p hp
  rw [decide_eq_true_eq] at hp ⊢
  exact ⟨hp.1, C17_check_mono h1 h2 h3 h4 hp.2⟩

open Classical in
/-- **C91**, `legals`: in a game that is not paused, the points of the first `w` rows that `try_play` accepts, row by row, each row
`h / w` times. -/
theorem C91_legals (h : Reach dbg n m g) (hps : g.passes ≠ 2) (hm : m < 65535) :
    g.legals dbg = .ok ((Spec.scan n).filter (fun p => g.Accepts dbg p)) := by
  obtain ⟨l, e, hl⟩ := (C91_legals_by h g.rule.flagIllegal).total (by omega)
  unfold Game.legals
  rw [e, hl]
  congr 1
  apply filter_congr'
  intro p hp
  rw [Bool.eq_iff_iff, decide_eq_true_eq, decide_eq_true_eq, accepts_iff h hps hm ((mem_scan h.inv.good).1 hp).1]
  rfl

theorem count_mod (w y : Nat) : ∀ k, ((List.range (w * k)).map (· % w)).count y = if y < w then k else 0
  | 0 => by simp
  | k + 1 => by
    rw [Nat.mul_succ, List.range_add, List.map_append, List.count_append, count_mod w y k, List.map_map]
    have e : (List.range w).map ((· % w) ∘ (w * k + ·)) = List.range w := by
      rw [← List.map_id (List.range w), List.map_map]
      apply List.map_congr_left
      intro j hj
      show (w * k + j) % w = j
      rw [Nat.mul_add_mod, Nat.mod_eq_of_lt (List.mem_range.1 hj)]
    rw [e, List.nodup_range.count]
    by_cases hy : y < w
    · rw [if_pos hy, if_pos hy, if_pos (List.mem_range.2 hy)]
    · rw [if_neg hy, if_neg hy, if_neg (fun h => hy (List.mem_range.1 h))]

theorem count_map_pair (x y : Nat) : ∀ (l : List Nat), (l.map (fun j => (x, j))).count (x, y) = l.count y
  | [] => rfl
  | a :: l => by
    rw [List.map_cons, List.count_cons, List.count_cons, count_map_pair x y l]
    congr 1
    simp

theorem count_rows (l : List Nat) (x y : Nat) : ∀ a, ((List.range a).flatMap (fun i => l.map (fun j => (i, j)))).count (x, y) =
    if x < a then l.count y else 0
  | 0 => by simp
  | a + 1 => by
    rw [List.range_succ, List.flatMap_append, List.count_append, count_rows l x y a, List.flatMap_singleton]
    by_cases hx : x = a
    · subst hx
      rw [if_neg (by omega), if_pos (by omega), Nat.zero_add,
        count_map_pair]
    · have h0 : (l.map (fun j => (a, j))).count (x, y) = 0 := List.count_eq_zero.2 (fun h => by
        obtain ⟨j, _, e⟩ := List.mem_map.1 h
        exact hx (Prod.mk.inj e).1.symm)
      rw [h0]
      by_cases h : x < a
      · rw [if_pos h, if_pos (by omega)]; rfl
      · rw [if_neg h, if_neg (by omega)]

/-- How often a point is gone through. -/
theorem count_scan (hn : n.Good) (p : Coord) : (Spec.scan n).count p = if OnBoard n p ∧ p.1 < n.w then n.h / n.w else 0 := by
  obtain ⟨x, y⟩ := p
  obtain ⟨k, hk⟩ := hn.fits
  have e : Spec.scan n = (List.range n.w).flatMap (fun i => ((List.range n.h).map (· % n.w)).map (fun j => (i, j))) := by
    unfold Spec.scan
    apply flatMap_congr'
    intro x _
    rw [List.map_map]; rfl
  rw [e, count_rows, hk, count_mod]
  by_cases hw : 0 < n.w
  · rw [Nat.mul_div_cancel_left _ hw]
    by_cases hx : x < n.w
    · rw [if_pos hx]
      by_cases hy : y < n.w
      · rw [if_pos hy]
        by_cases hO : OnBoard n (x, y)
        · rw [if_pos ⟨hO, hx⟩]
        · rw [if_neg (fun h => hO h.1)]
          have hh : n.h = 0 := by
            rcases Nat.eq_zero_or_pos n.h with h | h
            · exact h
            · exact absurd ⟨show x < n.h by have := hn.w_le h; omega, hy⟩ hO
          rw [hh] at hk
          rcases Nat.mul_eq_zero.1 hk.symm with h | h
          · omega
          · exact h
      · rw [if_neg hy, if_neg (fun h => hy h.1.2)]
    · rw [if_neg hx, if_neg (fun h => hx h.2)]
  · rw [if_neg (by omega), if_neg (fun h => by have := h.2; omega)]

/-- **C91**, so a point is listed iff it is in the first `w` rows and `try_play` accepts it, and then `h / w` times. -/
theorem C91_listed (h : Reach dbg n m g) (hps : g.passes ≠ 2) (hm : m < 65535) : ∃ l, g.legals dbg = .ok l ∧ ∀ p,
    (p.1 < n.w ∧ OnBoard n p ∧ g.Accepts dbg p → l.count p = n.h / n.w) ∧
    (¬ (p.1 < n.w ∧ OnBoard n p ∧ g.Accepts dbg p) → p ∉ l) := by
  classical
  refine ⟨_, C91_legals h hps hm, fun p => ⟨fun hp => ?_, fun hp hl => ?_⟩⟩
  · rw [List.count_filter (by simpa using hp.2.2), count_scan h.inv.good, if_pos ⟨hp.2.1, hp.1⟩]
  · obtain ⟨h1, h2⟩ := List.mem_filter.1 hl
    obtain ⟨h3, h4⟩ := (mem_scan h.inv.good).1 h1
    exact hp ⟨h4, h3, of_decide_eq_true h2⟩

/-- **C91**, what that costs: on the 4 × 2 board with black stones on the first two rows `legals` lists nothing, and the search is
offered the pass alone, though White may play any of the four points below. -/
theorem C91_missed (dbg : Bool) : ∃ g, Legal dbg ⟨4, 2⟩ 7 g ∧ g.passes ≠ 2 ∧ g.legals dbg = .ok [] ∧ g.legalsMoves dbg = .ok [.pass] ∧
    ∀ p, OnBoard ⟨4, 2⟩ p → 2 ≤ p.1 → g.Accepts dbg p := by
  have key : okAnd (mkGame dbg ⟨4, 2⟩ JAPANESE [.try_ (.play 0 0), .try_ .pass, .try_ (.play 0 1), .try_ .pass, .try_ (.play 1 0),
      .try_ .pass, .try_ (.play 1 1)]) (fun g => decide (g.passes ≠ 2) && (decide (g.legals dbg = .ok []) &&
      (decide (g.legalsMoves dbg = .ok [.pass]) && (Spec.points ⟨4, 2⟩).all (fun p => decide (p.1 < 2) ||
        okAnd (g.tryPlay dbg (.play p.1 p.2)) (fun r => decide (r.1 = none)))))) = true := by
    cases dbg <;> decide +kernel
  obtain ⟨g, hl, hg⟩ := mkGame_exists (by decide) key
  simp only [Bool.and_eq_true, decide_eq_true_eq, List.all_eq_true] at hg
  obtain ⟨h1, h2, h3, h4⟩ := hg
  refine ⟨g, hl, h1, h2, h3, fun p hp h5 => ?_⟩
  have := h4 p (mem_points.2 hp)
  rw [decide_eq_false (show ¬ p.1 < 2 by omega), Bool.false_or] at this
  obtain ⟨⟨r, g'⟩, e, hr⟩ := okAnd_iff.1 this
  have hr : r = none := of_decide_eq_true hr
  subst hr
  exact ⟨g', e⟩

/-- After three moves on the 4 × 2 board: the occupied corner is among the pseudo-legal points, once; each open point of the first two rows is
listed twice. -/
example : ∃ g, Legal true ⟨4, 2⟩ 3 g ∧ (decide (g.passes ≠ 2) &&
    decide (g.pseudoLegals = .ok [(0, 1), (0, 0), (0, 1), (1, 0), (1, 1), (1, 0), (1, 1)]) &&
    decide (g.legals true = .ok [(0, 1), (0, 1), (1, 0), (1, 1), (1, 0), (1, 1)])) = true :=
  mkGame_exists (n := ⟨4, 2⟩) (rule := JAPANESE) (l := [.try_ (.play 0 0), .try_ (.play 3 0), .try_ .pass]) (by decide) (by decide +kernel)

end Model
