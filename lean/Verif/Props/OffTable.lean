import Verif.Props.Unwind
import Verif.Proofs.Hidden
import Verif.Proofs.Stones
import Verif.Proofs.WeakGame
/-!
# C132: what the panic of a stone beyond the table leaves behind
-/

namespace Model
open Spec (OnBoard)
open Bits (has)

variable {dbg : Bool} {n : Dim}

theorem clear_clear : ∀ (b : BitVec 8) (i : Fin 8), b.getLsbD i.val = false → b &&& ~~~(1#8 <<< i.val) = b := by
  decide +kernel

/-- Clearing a bit that is clear changes nothing. -/
theorem clear_same {x : Nat} {lib : Liberties} (h : x < 8 * lib.length) (hx : has x lib = false) : Bits.set false x lib = .ok lib := by
  have hc : x / 8 < lib.length := by omega
  unfold Bits.set
  unfold has at hx
  dsimp only
  rw [List.getElem?_eq_getElem hc]
  simp only [List.getD_eq_getElem?_getD, List.getElem?_eq_getElem hc, Option.getD_some] at hx
  have := clear_clear lib[x / 8] ⟨x % 8, by omega⟩ hx
  simp only [Bool.false_eq_true, if_false]
  rw [this, List.set_getElem_self]

theorem set_past {x : Nat} {v : Bool} {lib : Liberties} (h : 8 * lib.length ≤ x) : Bits.set v x lib = panic := by
  unfold Bits.set
  dsimp only
  rw [List.getElem?_eq_none (by omega)]

theorem get_past {x : Nat} {lib : Liberties} (h : 8 * lib.length ≤ x) : Bits.get x lib = panic := by
  unfold Bits.get
  rw [List.getElem?_eq_none (by omega)]

/-- Taking from a group a liberty it does not have. -/
theorem removeLiberty_off {grp : Group} {x : Nat} (hl : grp.liberties.length = 46) (hx : has x grp.liberties = false) :
    grp.removeLiberty dbg x = if dbg = false ∧ x < 368 then .ok grp else panic := by
  unfold Group.removeLiberty
  by_cases h : x < 368
  · cases dbg with
    | true =>
      simp only [if_true, Bits.get_ok (show x < 8 * grp.liberties.length by omega), hx, ok_bind]
      rfl
    | false =>
      simp only [Bool.false_eq_true, if_false, clear_same (show x < 8 * grp.liberties.length by omega) hx, true_and, if_pos h]
      rfl
  · cases dbg with
    | true =>
      simp only [if_true, get_past (show 8 * grp.liberties.length ≤ x by omega)]
      rfl
    | false =>
      simp only [Bool.false_eq_true, if_false, set_past (show 8 * grp.liberties.length ≤ x by omega), true_and, if_neg h]
      rfl

theorem setChain_same {b : Goban} {k : Nat} {grp : Group} (h : b.ch k = some grp) : b.setChain k grp = b := by
  have hlt := Goban.ch_lt h
  unfold Goban.ch at h
  rw [List.getElem?_eq_getElem hlt] at h
  unfold Goban.setChain
  rw [show some grp = b.chains[k] from h.symm, List.set_getElem_self]

theorem take_off {b : Goban} {i : Nat} : ∀ (opp dead : List Nat),
    (∀ k ∈ opp, ∃ gk, b.ch k = some gk ∧ gk.liberties.length = 46 ∧ has i gk.liberties = false) →
    (∃ dead', opp.foldlM (Goban.takeLibertyU dbg i) dead b = .ok dead' b) ∨ opp.foldlM (Goban.takeLibertyU dbg i) dead b = .error .panic b
  | [], dead, _ => .inl ⟨dead, rfl⟩
  | k :: opp, dead, h => by
    obtain ⟨gk, h1, h2, h3⟩ := h k (by simp)
    rw [List.foldlM_cons]
    by_cases hc : dbg = false ∧ i < 368
    · have e : Goban.takeLibertyU dbg i dead k b = .ok (if gk.isDead then dead ++ [k] else dead) b := by
        unfold Goban.takeLibertyU
        refine step_rd (a := gk) (Goban.chainAt_ok h1) (step_rd (a := gk) (by rw [removeLiberty_off h2 h3, if_pos hc]) ?_)
        exact step_st (s' := b) (by rw [setChain_same h1]) rfl
      rw [U.bind_ok e]
      exact take_off opp _ (fun k hk => h k (by simp [hk]))
    · refine .inr (U.bind_error ?_)
      unfold Goban.takeLibertyU
      refine step_rd (a := gk) (Goban.chainAt_ok h1) (U.bind_error ?_)
      unfold rd
      dsimp only
      rw [removeLiberty_off h2 h3, if_neg hc]
      rfl

theorem create_off {b : Goban} {i : Nat} {c : Color} {libs : List Nat} (hn : b.nextStone.length ≤ i) (hl : ∀ x ∈ libs, x < 368) :
    Goban.createChainU dbg i c libs b = .error .panic b := by
  obtain ⟨lib, e1, _, _⟩ := set_fold_ok libs EMPTY_LIBERTIES Bits.empty_length hl
  unfold Goban.createChainU
  refine step_rd e1 (U.bind_error ?_)
  unfold st
  dsimp only
  rw [setNext_panic hn]
  rfl

/-- The neighbours the board looks at are points of the board. -/
theorem neighborsIdx_cases {b : Goban} (h : Inv n b) (i : Nat) :
    b.neighborsIdx dbg i = panic ∨ ∃ l, b.neighborsIdx dbg i = .ok l ∧ ∀ x ∈ l, x < 361 := by
  cases e : b.neighborsIdx dbg i with
  | error f =>
    cases f with
    | panic => exact .inl rfl
    | diverge => exact absurd e Ends.neighborsIdx
  | ok l =>
    refine .inr ⟨l, rfl, fun x hx => ?_⟩
    unfold Goban.neighborsIdx at e
    obtain ⟨c, _, e⟩ := bind_eq_ok e
    obtain ⟨ps, e1, e⟩ := bind_eq_ok e
    cases e
    unfold Goban.neighborsCoords validCoords at e1
    obtain ⟨qs, _, e1⟩ := bind_eq_ok e1
    cases e1
    rw [List.mem_map] at hx
    obtain ⟨q, hq, rfl⟩ := hx
    rw [List.mem_filter, h.size, isCoordValid_iff] at hq
    rw [h.size]
    exact h.lt361 (twoTo1_lt h.good hq.2)

/-- A stone beyond the table: the board is unchanged, unless a release build can still clear a bit for it and it joins one group. -/
theorem push_off_cases {b : Goban} (h : Inv n b) {pt : Coord} (hi : 361 ≤ twoTo1dim n.sz pt) (c : Color) :
    Goban.pushWthFeedbackU dbg pt c b = .error .panic b ∨
    ∃ l a dead k, dbg = false ∧ twoTo1dim n.sz pt < 368 ∧ b.neighborsIdx dbg (twoTo1dim n.sz pt) = .ok l ∧ AroundOK b c l a ∧ a.same = [k] ∧
      (∀ x ∈ l, x < 361) ∧ Goban.pushWthFeedbackU dbg pt c b = ((do
        let added ← Goban.attachU dbg (twoTo1dim n.sz pt) c a.same a.libs
        st (fun g => do let z ← indexZobrist (twoTo1dim n.sz pt) c; .ok { g with zobristHash := g.zobristHash ^^^ z })
        rd (fun g => if dbg then g.checkIntegrityAll dbg else .ok ())
        pure (dead, added)) : U Goban (List Nat × Nat)) b := by
  have hr := h.rep
  have hno : ∀ k gk, b.ch k = some gk → has (twoTo1dim n.sz pt) gk.liberties = false := by
    intro k gk hk
    cases e : has (twoTo1dim n.sz pt) gk.liberties with
    | false => rfl
    | true =>
      have := h.lt361 ((h.libs k gk hk _).1 e).1
      omega
  rcases neighborsIdx_cases (dbg := dbg) h (twoTo1dim n.sz pt) with e | ⟨l, e, hl⟩
  · left
    unfold Goban.pushWthFeedbackU
    refine step_rd (a := twoTo1dim n.sz pt) (by rw [h.size]) (U.bind_error ?_)
    unfold rd
    dsimp only
    rw [e]; rfl
  · obtain ⟨a, ea, ha⟩ := around_ok (c := c) hr hl
    have hlibs : ∀ x ∈ a.libs, x < 368 := fun x hx => by
      have := hl x ((ha.libs x).1 hx).1
      omega
    have hopp : ∀ k ∈ a.opp, ∃ gk, b.ch k = some gk ∧ gk.liberties.length = 46 ∧ has (twoTo1dim n.sz pt) gk.liberties = false := by
      intro k hk
      obtain ⟨j, _, hbj, _⟩ := (ha.opp k).1 hk
      obtain ⟨gk, hgk⟩ := hr.live j k hbj
      exact ⟨gk, hgk, libs_len hr hgk, hno k gk hgk⟩
    rcases take_off (dbg := dbg) a.opp [] hopp with ⟨dead, e1⟩ | e1
    · by_cases hs : ∃ k, a.same = [k]
      · obtain ⟨k, hk⟩ := hs
        by_cases hc : dbg = false ∧ twoTo1dim n.sz pt < 368
        · refine .inr ⟨l, a, dead, k, hc.1, hc.2, e, ha, hk, hl, ?_⟩
          unfold Goban.pushWthFeedbackU
          refine step_rd (a := twoTo1dim n.sz pt) (by rw [h.size]) (step_rd e (step_rd ea ?_))
          rw [U.bind_ok e1]
        · left
          unfold Goban.pushWthFeedbackU
          refine step_rd (a := twoTo1dim n.sz pt) (by rw [h.size]) (step_rd e (step_rd ea ?_))
          rw [U.bind_ok e1]
          refine U.bind_error ?_
          rw [hk]
          obtain ⟨j, _, hbj, _⟩ := (ha.same k).1 (by rw [hk]; simp)
          obtain ⟨gk, hgk⟩ := hr.live j k hbj
          refine U.bind_error ?_
          unfold st
          dsimp only
          rw [Goban.chainAt_ok hgk, ok_bind, removeLiberty_off (libs_len hr hgk) (hno k gk hgk), if_neg hc]
          rfl
      · left
        unfold Goban.pushWthFeedbackU
        refine step_rd (a := twoTo1dim n.sz pt) (by rw [h.size]) (step_rd e (step_rd ea ?_))
        rw [U.bind_ok e1]
        refine U.bind_error ?_
        have hcr := create_off (dbg := dbg) (b := b) (c := c) (by rw [hr.nlen]; exact hi) hlibs
        rcases hsame : a.same with _ | ⟨x, _ | ⟨y, rest⟩⟩
        · exact hcr
        · exact absurd ⟨x, hsame⟩ hs
        · exact U.bind_error hcr
    · left
      unfold Goban.pushWthFeedbackU
      refine step_rd (a := twoTo1dim n.sz pt) (by rw [h.size]) (step_rd e (step_rd ea ?_))
      exact U.bind_error e1

theorem row_off_fin : ∀ (k : Fin 20) (j : Fin 7), k.val ≠ 0 → (k.val = 19 → u8 ((361 + j.val) / k.val) = 19) ∧
    (k.val ≠ 19 → k.val < u8 ((361 + j.val) / k.val)) ∧ u8 ((361 + j.val) / k.val) < 254 := by
  decide +kernel

theorem row_off (k : Nat) (hk : k < 20) (i : Nat) (h2 : i < 368) (h0 : k ≠ 0) (h1 : 361 ≤ i) :
    (k = 19 → u8 (i / k) = 19) ∧ (k ≠ 19 → k < u8 (i / k)) ∧ u8 (i / k) < 254 := by
  have := row_off_fin ⟨k, hk⟩ ⟨i - 361, by omega⟩ h0
  rwa [show 361 + (i - 361) = i by omega] at this

/-- Beyond the table and still within the bits of a group, the board looks at no point, or on boards of height 19 at one. -/
theorem nb_off {b : Goban} (h : Inv n b) {i : Nat} (h1 : 361 ≤ i) (h2 : i < 368) {l : List Nat} (e : b.neighborsIdx dbg i = .ok l) :
    l = if n.h = 19 then [342 + i % n.w] else [] := by
  have h19 := h.good.h19
  have w19 := h.good.w19
  unfold Goban.neighborsIdx at e
  rw [h.size] at e
  obtain ⟨c, e0, e2⟩ := bind_eq_ok e
  clear e
  rename' e2 => e
  unfold oneTo2dim Dim.sz at e0
  split at e0
  · cases e0
  rename_i hz
  simp only [not_or] at hz
  cases e0
  have hw := Nat.mod_lt i (Nat.pos_of_ne_zero hz.2)
  have hcol : u8 (i % n.w) = i % n.w := Nat.mod_eq_of_lt (by omega)
  have hrow : (n.h = 19 → u8 (i / n.h) = 19) ∧ (n.h ≠ 19 → n.h < u8 (i / n.h)) ∧ u8 (i / n.h) < 254 :=
    row_off n.h (by omega) i h2 hz.1 h1
  simp only [hcol] at e
  generalize u8 (i / n.h) = r at e hrow
  unfold Goban.neighborsCoords validCoords at e
  rw [neighborCoords_ok (by exact (by omega : r < 255)) (by exact (by omega : i % n.w < 255)), h.size] at e
  simp only [ok_bind] at e
  cases e
  have hv : ∀ u v, isCoordValid n.sz (u, v) = decide (u < n.h ∧ v < n.w) := by
    intro u v
    have := isCoordValid_iff (n := n) (c := (u, v))
    unfold OnBoard at this
    by_cases hh : u < n.h ∧ v < n.w
    · rw [this.2 hh]; simp [hh]
    · rw [decide_eq_false hh]
      cases hc : isCoordValid n.sz (u, v) with
      | false => rfl
      | true => exact absurd (this.1 hc) hh
  have hs : wsub1 r = r - 1 := by unfold wsub1; omega
  simp only [List.filter_cons, hv, hs, List.filter_nil]
  by_cases hh : n.h = 19
  · have := hrow.1 hh
    rw [if_pos hh, this, hh]
    simp [hw, twoTo1dim, Dim.sz, hh]
  · have := hrow.2.1 hh
    rw [if_neg hh]
    have t1 : ¬ (r + 1 < n.h) := by omega
    have t2 : ¬ (r - 1 < n.h) := by omega
    have t3 : ¬ (r < n.h) := by omega
    simp [t1, t2, t3]

/-- A list of stones whose last entry points beyond the table cannot be walked. -/
theorem walk_off {nx : List Nat} {o i z : Nat} (hi : nx.length ≤ i) (ho : i ≠ o) : ∀ (t : List Nat) (a fuel : Nat),
    Walk nx o (a :: t) → (a :: t).Nodup → o ∉ t → (a :: t).getLast? = some z → (a :: t).length < fuel →
    Group.iterFrom dbg (nx.set z i) o fuel a = panic := by
  intro t
  induction t with
  | nil =>
    intro a fuel hw _ _ hz hf
    obtain ⟨f, rfl⟩ : ∃ f, fuel = f + 2 := ⟨fuel - 2, by simp at hf; omega⟩
    have hza : a = z := by simpa using hz
    subst hza
    have ha : a < nx.length := hw.lt a (by simp)
    unfold Group.iterFrom
    rw [getElem?_set_eq' ha]
    dsimp only
    rw [if_neg ho, if_neg (by simp; omega)]
    unfold Group.iterFrom
    rw [List.getElem?_eq_none (by rw [List.length_set]; exact hi)]
    rfl
  | cons b t ih =>
    intro a fuel hw hnd hno hz hf
    obtain ⟨f, rfl⟩ : ∃ f, fuel = f + 1 := ⟨fuel - 1, by simp at hf; omega⟩
    have hz' : (b :: t).getLast? = some z := by rwa [List.getLast?_cons_cons] at hz
    have hza : z ≠ a := by
      rintro rfl
      exact (List.nodup_cons.1 hnd).1 (List.mem_of_getLast? hz')
    have hba : b ≠ a := fun h => by
      rw [List.nodup_cons] at hnd
      exact hnd.1 (by simp [h])
    have hbo : b ≠ o := fun h => hno (by simp [h])
    have hih := ih b f hw.2 (List.nodup_cons.1 hnd).2 (fun h => hno (List.mem_cons_of_mem _ h)) hz' (by simpa using hf)
    unfold Group.iterFrom
    rw [List.getElem?_set_ne hza, hw.1]
    simp only [if_neg hbo, beq_iff_eq, Bool.and_eq_true, hba, and_false, if_false]
    rw [hih]; rfl

theorem fold_of_walk {σ : Type} {nx : List Nat} {o : Nat} {body : σ → Nat → M σ} (hb : ∀ s x, Ends (body s x)) : ∀ (fuel cur : Nat) (s : σ),
    Group.iterFrom dbg nx o fuel cur = panic → Group.iterFoldFrom dbg nx o body fuel cur s = panic
  | 0, _, _, h => by cases h
  | fuel + 1, cur, s, h => by
    unfold Group.iterFrom at h
    unfold Group.iterFoldFrom
    cases e : nx[cur]? with
    | none => rfl
    | some x =>
      rw [e] at h
      dsimp only at h ⊢
      by_cases h1 : x = o
      · rw [if_pos h1] at h; cases h
      · rw [if_neg h1] at h ⊢
        split at h
        · rename_i h2; rw [if_pos h2]
        · rename_i h2
          rw [if_neg h2]
          have hrec : Group.iterFrom dbg nx o fuel x = panic := by
            cases e1 : Group.iterFrom dbg nx o fuel x with
            | ok l => rw [e1] at h; cases h
            | error f => rw [e1] at h; exact h
          cases e2 : body s cur with
          | ok s' => exact fold_of_walk hb fuel x s' hrec
          | error f =>
            cases f with
            | panic => rfl
            | diverge => exact absurd e2 (hb s cur)

/-- The board such a stone leaves when it joins the group whose last stone is `z`. -/
def cutBoard (b : Goban) (z i : Nat) : Goban := { b with nextStone := b.nextStone.set z i }

theorem cut_getColor {b : Goban} {z i : Nat} (q : Coord) : (cutBoard b z i).getColor q = b.getColor q := rfl

theorem push_off_joins {b : Goban} (h : Inv n b) {pt : Coord} {c : Color} (h1 : 361 ≤ twoTo1dim n.sz pt) (h2 : twoTo1dim n.sz pt < 368)
    (h19 : n.h = 19) {k : Nat} {grp : Group} (hk : b.bd (342 + twoTo1dim n.sz pt % n.w) = some k) (hg : b.ch k = some grp) (hc : grp.color = c) :
    Goban.pushWthFeedbackU false pt c b = .error .panic (cutBoard b grp.last (twoTo1dim n.sz pt)) := by
  have hr := h.rep
  have hw : 0 < n.w := Nat.pos_of_ne_zero (fun h0 => by
    obtain ⟨d, hd⟩ := h.good.fits
    rw [h0] at hd; omega)
  have hno : has (twoTo1dim n.sz pt) grp.liberties = false := by
    cases e : has (twoTo1dim n.sz pt) grp.liberties with
    | false => rfl
    | true =>
      have := h.lt361 ((h.libs k grp hg _).1 e).1
      omega
  have hbw := Nat.mod_lt (twoTo1dim n.sz pt) hw
  have hw19 := h.good.w19
  have hnb : b.neighborsIdx false (twoTo1dim n.sz pt) = .ok [342 + twoTo1dim n.sz pt % n.w] := by
    rcases neighborsIdx_cases (dbg := false) h (twoTo1dim n.sz pt) with e | ⟨l, e, _⟩
    · exfalso
      have hrow := row_off n.h (by omega) _ h2 (by omega) h1
      have hcol : u8 (twoTo1dim n.sz pt % n.w) < 255 := by unfold u8; omega
      unfold Goban.neighborsIdx Goban.neighborsCoords validCoords at e
      rw [h.size, show oneTo2dim n.sz (twoTo1dim n.sz pt) = .ok (u8 (twoTo1dim n.sz pt / n.h), u8 (twoTo1dim n.sz pt % n.w)) by
        unfold oneTo2dim Dim.sz
        rw [if_neg (by simp only; omega)], ok_bind, neighborCoords_ok (by exact (by omega : u8 (twoTo1dim n.sz pt / n.h) < 255)) hcol] at e
      cases e
    · rw [e, nb_off h h1 h2 e, if_pos h19]
  have ea : [342 + twoTo1dim n.sz pt % n.w].foldlM (b.aroundStep c) { same := [], opp := [], libs := [] } =
      .ok { same := [k], opp := [], libs := [] } := by
    rw [List.foldlM_cons]
    unfold Goban.aroundStep
    rw [hr.boardAt (by omega), hk, ok_bind]
    dsimp only
    rw [Goban.chainAt_ok hg, ok_bind, if_pos hc]
    rfl
  obtain ⟨l, hch⟩ := hr.chain k grp hg
  have hlast := hch.walk.lt _ hch.last_mem
  have horig := hch.walk.lt _ hch.origin_mem
  have hl46 := hch.libs
  have hu : u16 (twoTo1dim n.sz pt) = twoTo1dim n.sz pt := u16_lt (by omega)
  rw [hr.nlen] at hlast horig
  unfold Goban.pushWthFeedbackU
  refine step_rd (a := twoTo1dim n.sz pt) (by rw [h.size]) (step_rd hnb (step_rd ea ?_))
  refine (U.bind_ok (a := []) (s' := b) rfl).trans (U.bind_error ?_)
  unfold Goban.attachU
  dsimp only
  refine step_st (s' := b) (by
    rw [Goban.chainAt_ok hg, ok_bind, removeLiberty_off hl46 hno, if_pos ⟨rfl, h2⟩, ok_bind]
    show (Except.ok (b.setChain k grp) : M Goban) = _
    rw [setChain_same hg]) (U.bind_error ?_)
  unfold Goban.addStoneToChainU
  refine step_rd (a := grp) (Goban.chainAt_ok hg) ?_
  rw [if_neg (by omega), hu]
  refine step_st (s' := cutBoard b grp.last (twoTo1dim n.sz pt)) (Goban.setNext_ok (by rw [hr.nlen]; exact hlast)) (U.bind_error ?_)
  unfold st
  dsimp only
  rw [setNext_panic (by show (List.set _ _ _).length ≤ _; rw [List.length_set, hr.nlen]; exact h1)]
  rfl

/-! ## C132 -/

variable {m : Nat} {b : Goban} {p : Coord} {c : Color}

theorem pushU_of_feedback (h : Inv n b) (hi : 361 ≤ twoTo1dim n.sz p) {b' : Goban} (e : Goban.pushWthFeedbackU dbg p c b = .error .panic b')
    (hd : dbg = true → b' = b) : Goban.pushU dbg p c b = .error .panic b' := by
  by_cases hon : dbg = false
  · subst hon
    unfold Goban.pushU
    exact step_rd (a := ()) rfl (step_rd (a := ()) rfl (U.bind_error e))
  · have hd' : dbg = true := by simpa using hon
    subst hd'
    rw [hd rfl] at e ⊢
    unfold Goban.pushU
    by_cases h1 : p.1 < n.h
    · by_cases h2 : p.2 < n.w
      · exact absurd (h.lt361 (twoTo1_lt h.good ⟨h1, h2⟩)) (by omega)
      · refine step_rd (a := ()) (debugAssert_true (by rw [h.size]; exact decide_eq_true h1)) (U.bind_error ?_)
        unfold rd
        dsimp only
        rw [h.size, show decide (p.2 < n.sz.2) = false from decide_eq_false h2]
        rfl
    · refine U.bind_error ?_
      unfold rd
      dsimp only
      rw [h.size, show decide (p.1 < n.sz.1) = false from decide_eq_false h1]
      rfl

/-- The point of the board beside such a stone. -/
def besideOff (n : Dim) (p : Coord) : Coord := (18, (p.1 * n.h + p.2) % n.w)

theorem beside_bd (h : Inv n b) (h19 : n.h = 19) : OnBoard n (besideOff n p) ∧
    twoTo1dim n.sz (besideOff n p) = 342 + twoTo1dim n.sz p % n.w := by
  have hw : 0 < n.w := Nat.pos_of_ne_zero (fun h0 => by
    obtain ⟨d, hd⟩ := h.good.fits
    rw [h0] at hd; omega)
  refine ⟨⟨by show 18 < n.h; omega, Nat.mod_lt _ hw⟩, ?_⟩
  unfold twoTo1dim besideOff Dim.sz
  simp only
  rw [h19]

theorem feedback_unchanged (h : Inv n b) (hi : 361 ≤ p.1 * n.h + p.2)
    (hno : dbg = true ∨ 367 < p.1 * n.h + p.2 ∨ n.h ≠ 19 ∨ b.getColor (besideOff n p) ≠ .ok (some c)) :
    Goban.pushWthFeedbackU dbg p c b = .error .panic b := by
  rcases push_off_cases (dbg := dbg) (pt := p) h hi c with e | ⟨l, a, dead, k, hd, h2, e, ha, hs, hl, _⟩
  · exact e
  · exfalso
    have hl' := nb_off h hi h2 e
    obtain ⟨j, hj, hbj, hcj⟩ := (ha.same k).1 (by rw [hs]; simp)
    by_cases h19 : n.h = 19
    · rw [hl', if_pos h19, List.mem_singleton] at hj
      obtain ⟨ho, ht⟩ := beside_bd (p := p) h h19
      rcases hno with h' | h' | h' | h'
      · rw [hd] at h'; cases h'
      · exact absurd h2 (by show ¬ (p.1 * n.h + p.2 < 368); omega)
      · exact h' h19
      · refine h' ?_
        unfold Goban.getColor
        rw [h.size, h.rep.getColorIdx (h.lt361 (twoTo1_lt h.good ho)), ht, show 342 + twoTo1dim n.sz p % n.w = j from hj.symm, hcj]
    · rw [hl', if_neg h19] at hj
      cases hj

/-- **C132**: a stone beyond the table of 361 cells panics. In a debug build the board is then exactly as before. So it is in a release build,
except on boards of height 19 with an index below 368 and a stone of the same colour on the point the board takes for its neighbour. -/
theorem C132_unchanged (h : Board dbg n m b) (hi : 361 ≤ p.1 * n.h + p.2)
    (hno : dbg = true ∨ 367 < p.1 * n.h + p.2 ∨ n.h ≠ 19 ∨ b.getColor (18, (p.1 * n.h + p.2) % n.w) ≠ .ok (some c)) :
    Goban.pushU dbg p c b = .error .panic b :=
  pushU_of_feedback h.inv.1 hi (feedback_unchanged h.inv.1 hi hno) (fun _ => rfl)

/-- **C132**, the exception: points, hash and stone count are as before, but the stones of the group of that neighbour can no longer be
listed and the group cannot be removed. The other groups can still be listed. -/
theorem C132_cut (h : Board false n m b) (hi : 361 ≤ p.1 * n.h + p.2) (h2 : p.1 * n.h + p.2 ≤ 367) (h19 : n.h = 19)
    (hc : b.getColor (18, (p.1 * n.h + p.2) % n.w) = .ok (some c)) :
    ∃ b', Goban.pushU false p c b = .error .panic b' ∧ b'.size = b.size ∧ b'.zobristHash = b.zobristHash ∧
      b'.numberOfStones = b.numberOfStones ∧ (∀ q, b'.getColor q = b.getColor q) ∧
      ∀ k l, b.chainStonesIdx false k = .ok l →
        ((∃ s ∈ l, s.coord = (18, (p.1 * n.h + p.2) % n.w)) → b'.chainStonesIdx false k = panic ∧ b'.removeChain false k = panic) ∧
        ((∀ s ∈ l, s.coord ≠ (18, (p.1 * n.h + p.2) % n.w)) → b'.chainStonesIdx false k = .ok l) := by
  have hI := h.inv.1
  have hr := hI.rep
  obtain ⟨ho, ht⟩ := beside_bd (p := p) hI h19
  have hcol : b.col (342 + twoTo1dim n.sz p % n.w) = some c := by
    rw [← ht]
    have hc' := hc
    unfold Goban.getColor at hc'
    rw [hI.size] at hc'
    have := hr.getColorIdx (hI.lt361 (twoTo1_lt hI.good ho))
    rw [show (18, (p.1 * n.h + p.2) % n.w) = besideOff n p from rfl, this] at hc'
    exact Except.ok.inj hc'
  cases hk : b.bd (342 + twoTo1dim n.sz p % n.w) with
  | none => rw [col_none hk] at hcol; cases hcol
  | some k0 =>
    obtain ⟨g0, hg0⟩ := hr.live _ _ hk
    have hgc : g0.color = c := by
      rw [col_of_bd hk hg0] at hcol; exact Option.some.inj hcol
    have hpush := push_off_joins hI (pt := p) hi (by show p.1 * n.h + p.2 < 368; omega) h19 hk hg0 hgc
    obtain ⟨l0, hc0⟩ := hr.chain k0 g0 hg0
    refine ⟨cutBoard b g0.last (twoTo1dim n.sz p), pushU_of_feedback hI hi hpush (by simp), rfl, rfl, rfl, fun q => rfl, ?_⟩
    intro k l el
    have hlive : ∃ grp, b.ch k = some grp := by
      unfold Goban.chainStonesIdx at el
      obtain ⟨grp, e1, _⟩ := bind_eq_ok el
      exact ⟨grp, live_ch.1 e1⟩
    obtain ⟨grp, hgrp⟩ := hlive
    obtain ⟨l1, hc1⟩ := hr.chain k grp hgrp
    rw [chainStones_ok hI hgrp hc1] at el
    cases el
    have hmem : (∃ s ∈ l1.map (fun i => ({ coord := ptOf n i, color := grp.color } : Stone)), s.coord = (18, (p.1 * n.h + p.2) % n.w)) ↔ k = k0 := by
      constructor
      · rintro ⟨s, hs, hs'⟩
        rw [List.mem_map] at hs
        obtain ⟨j, hj, rfl⟩ := hs
        have hbj := (hc1.mem j).2 hj
        have : j = twoTo1dim n.sz (besideOff n p) := by
          rw [← twoTo1_ptOf (n := n) (i := j)]
          exact congrArg _ hs'
        rw [this, ht, hk] at hbj
        exact (Option.some.inj hbj).symm
      · rintro rfl
        refine ⟨_, List.mem_map.2 ⟨_, (hc1.mem _).1 hk, rfl⟩, ?_⟩
        show ptOf n _ = besideOff n p
        rw [← ht, ptOf_twoTo1 hI.good ho]
    constructor
    · intro hs
      obtain rfl := hmem.1 hs
      rw [hg0] at hgrp; cases hgrp
      have hlen := hc0.length_le hr.nlen
      have hwalk : ∀ d : Bool, Group.iterFrom d (b.nextStone.set g0.last (twoTo1dim n.sz p)) g0.origin 362 g0.origin = panic := by
        intro d
        cases l0 with
        | nil => exact hc0.walk.elim
        | cons a t =>
          have ha : a = g0.origin := by simpa using hc0.head
          have hnd := hc0.nodup
          rw [List.nodup_cons] at hnd
          have hor := hc0.walk.lt _ hc0.origin_mem
          rw [hr.nlen] at hor
          have := walk_off (dbg := d) (nx := b.nextStone) (o := g0.origin) (i := twoTo1dim n.sz p) (z := g0.last) (by rw [hr.nlen]; exact hi)
            (by show p.1 * n.h + p.2 ≠ _; omega) t a 362 hc0.walk hc0.nodup (ha ▸ hnd.1) hc0.last (by omega)
          rwa [ha] at this
      have hnl : (b.nextStone.set g0.last (twoTo1dim n.sz p)).length + 1 = 362 := by rw [List.length_set, hr.nlen]
      constructor
      · unfold Goban.chainStonesIdx
        rw [show (cutBoard b g0.last (twoTo1dim n.sz p)).chains = b.chains from rfl, Goban.chainAt_ok hg0, ok_bind]
        unfold Group.iter cutBoard
        dsimp only
        rw [hnl, hwalk]
        rfl
      · unfold Goban.removeChain
        rw [show (cutBoard b g0.last (twoTo1dim n.sz p)).chains = b.chains from rfl, Goban.chainAt_ok hg0, ok_bind]
        unfold Group.iterFold
        rw [show (cutBoard b g0.last (twoTo1dim n.sz p)).nextStone.length + 1 = 362 from hnl,
          show Group.iterFoldFrom false (cutBoard b g0.last (twoTo1dim n.sz p)).nextStone g0.origin (Goban.removeStoneStep false k g0.color)
            362 g0.origin (cutBoard b g0.last (twoTo1dim n.sz p)) = panic from
            fold_of_walk (fun _ _ => Ends.removeStoneStep) 362 g0.origin _ (hwalk false)]
        rfl
    · intro hs
      have hne : k ≠ k0 := fun hkk => by
        obtain ⟨s, h3, h4⟩ := hmem.2 hkk
        exact hs s h3 h4
      have hlast : g0.last ∉ l1 := fun hm => by
        have h3 := (hc1.mem _).2 hm
        have h4 := (hc0.mem _).2 hc0.last_mem
        rw [h3] at h4
        exact hne (Option.some.inj h4)
      have hlen := hc1.length_le hr.nlen
      have hwk : Walk (b.nextStone.set g0.last (twoTo1dim n.sz p)) grp.origin l1 :=
        Walk.congr hc1.walk (fun x hx => List.getElem?_set_ne (by rintro rfl; exact hlast hx))
      have hit : grp.iter false (cutBoard b g0.last (twoTo1dim n.sz p)).nextStone = .ok l1 := by
        unfold Group.iter
        cases l1 with
        | nil => exact hwk.elim
        | cons a t =>
          have ha : a = grp.origin := by simpa using hc1.head
          have hnd := hc1.nodup
          rw [List.nodup_cons] at hnd
          have := Walk.iterFrom (dbg := false) t a 362 hwk hc1.nodup (ha ▸ hnd.1) (by omega)
          rw [show (cutBoard b g0.last (twoTo1dim n.sz p)).nextStone.length + 1 = 362 by
            show (List.set _ _ _).length + 1 = _; rw [List.length_set, hr.nlen], ← ha]
          rwa [← ha] at this
      have hok := chainStones_ok (dbg := false) hI hgrp hc1
      unfold Goban.chainStonesIdx at hok ⊢
      rw [show (cutBoard b g0.last (twoTo1dim n.sz p)).chains = b.chains from rfl, Goban.chainAt_ok hgrp, ok_bind, hit]
      rw [Goban.chainAt_ok hgrp, ok_bind, hc1.iter hr.nlen] at hok
      exact hok

variable {g : Game}

/-- **C132** for a game: `play` of such a move panics and leaves the position in the history and the board as `push` leaves it, and nothing
else has changed. -/
theorem C132_play (h : Reach dbg n m g) {x y : Nat} (hi : 361 ≤ x * n.h + y) :
    ∃ hist, historyInsert g.history g.goban = .ok hist ∧ Game.playU dbg (.play x y) g =
      .error .panic { g with history := hist, goban := U.after (Goban.pushU dbg (x, y) g.turn) g.goban } := by
  have hI := h.inv
  obtain ⟨hist, el, _⟩ := historyInsert_ok hI g.history (fun b hb => by
    obtain ⟨m', _, hb'⟩ := h.spec.history b hb
    exact hb'.inv.1)
  refine ⟨hist, el, ?_⟩
  have key : ∃ b', Goban.pushWthFeedbackU dbg (x, y) g.turn g.goban = .error .panic b' ∧
      U.after (Goban.pushU dbg (x, y) g.turn) g.goban = b' := by
    by_cases hno : dbg = true ∨ 367 < x * n.h + y ∨ n.h ≠ 19 ∨ g.goban.getColor (besideOff n (x, y)) ≠ .ok (some g.turn)
    · have e := feedback_unchanged hI (p := (x, y)) hi hno
      refine ⟨g.goban, e, ?_⟩
      unfold U.after
      rw [pushU_of_feedback (p := (x, y)) hI hi e (fun _ => rfl)]
    · simp only [not_or, not_not, Bool.not_eq_true] at hno
      obtain ⟨hd, h2, h19, hc⟩ := hno
      subst hd
      obtain ⟨ho, ht⟩ := beside_bd (p := (x, y)) hI h19
      have hcol : g.goban.col (342 + twoTo1dim n.sz (x, y) % n.w) = some g.turn := by
        unfold Goban.getColor at hc
        rw [hI.size, hI.rep.getColorIdx (hI.lt361 (twoTo1_lt hI.good ho)), ht] at hc
        exact Except.ok.inj hc
      cases hk : g.goban.bd (342 + twoTo1dim n.sz (x, y) % n.w) with
      | none => rw [col_none hk] at hcol; cases hcol
      | some k0 =>
        obtain ⟨g0, hg0⟩ := hI.rep.live _ _ hk
        rw [col_of_bd hk hg0] at hcol
        have e := push_off_joins hI (pt := (x, y)) hi (by show x * n.h + y < 368; omega) h19 hk hg0 (Option.some.inj hcol)
        refine ⟨_, e, ?_⟩
        unfold U.after
        rw [pushU_of_feedback (p := (x, y)) hI hi e (by simp)]
  obtain ⟨b', e, ea⟩ := key
  rw [ea]
  unfold Game.playU
  refine step_st (s' := { g with history := hist }) (by rw [el]; rfl) (step_rd (a := g.turn) rfl (U.bind_error ?_))
  unfold Game.onGoban
  dsimp only
  rw [e]

/-- **C132** for `try_play`: it panics before anything is changed. -/
theorem C132_try_play (h : Reach dbg n m g) {x y : Nat} (hi : 361 ≤ x * n.h + y) (hp : g.passes ≠ 2) :
    Game.tryPlayU dbg (.play x y) g = .error .panic g := by
  unfold Game.tryPlayU
  refine step_rd (a := g.passes) rfl ?_
  rw [if_neg hp]
  refine U.bind_error ?_
  unfold rd
  dsimp only
  have : g.goban.getColor (x, y) = panic := by
    unfold Goban.getColor Goban.getColorIdx Goban.boardAt
    rw [h.inv.size, List.getElem?_eq_none (by rw [h.inv.rep.blen]; exact hi)]
    rfl
  rw [this]; rfl

/-- The exception occurs. Black has a stone at `(18, 0)` of the 19 × 19 board, and `push` at `(19, 0)` panics. -/
theorem C132_reached : ∃ b, Board false 19 1 b ∧ b.getColor (18, 0) = .ok (some .black) ∧
    b.chainStonesIdx false 0 = .ok [⟨(18, 0), .black⟩] ∧
    (U.after (Goban.pushU false (19, 0) .black) b).chainStonesIdx false 0 = panic := by
  obtain ⟨b0, e0, h⟩ := okAnd_iff.1 (show okAnd (Goban.new (19, 19)) (fun b0 => decide (b0.getColor (18, 0) = .ok none) &&
      okAnd (b0.push false (18, 0) .black) (fun b => decide (b.getColor (18, 0) = .ok (some .black)) &&
        decide (b.chainStonesIdx false 0 = .ok [⟨(18, 0), .black⟩]))) = true by
    decide +kernel)
  rw [Bool.and_eq_true] at h
  obtain ⟨b, e1, h'⟩ := okAnd_iff.1 h.2
  rw [Bool.and_eq_true] at h'
  have hb : Board false 19 1 b := .push (.new (by decide) e0) (by decide) (of_decide_eq_true h.1) e1
  have h1 := of_decide_eq_true h'.1
  have h2 := of_decide_eq_true h'.2
  refine ⟨b, hb, h1, h2, ?_⟩
  obtain ⟨b', e, _, _, _, _, hk⟩ := C132_cut (p := (19, 0)) hb (by decide) (by decide) rfl h1
  unfold U.after
  rw [e]
  exact ((hk 0 _ h2).1 ⟨_, List.mem_singleton.2 rfl, rfl⟩).1

/-- The call ends in a panic. -/
def isPanic {α : Type} (x : M α) : Bool :=
  match x with
  | .error .panic => true
  | _ => false

theorem isPanic_iff {α : Type} {x : M α} (h : isPanic x = true) : x = panic := by
  unfold isPanic at h
  split at h
  · rfl
  · cases h

/-- The call is accepted and the game it leads to satisfies `f`. -/
def acceptedAnd (x : M (Option PlayError × Game)) (f : Game → Bool) : Bool := okAnd x (fun r => decide (r.1 = none) && f r.2)

theorem acceptedAnd_iff {x : M (Option PlayError × Game)} {f : Game → Bool} (h : acceptedAnd x f = true) : ∃ g, x = .ok (none, g) ∧ f g = true := by
  obtain ⟨⟨o, g⟩, e, h⟩ := okAnd_iff.1 h
  rw [Bool.and_eq_true] at h
  cases of_decide_eq_true h.1
  exact ⟨g, e, h.2⟩

/-- A game in which it shows. Black has `(18, 0)`; `play` at `(19, 0)` panics and the caller goes on. The next three moves are accepted, and
the capture of the black stone panics. -/
theorem C132_game_reached : ∃ g0 g1 g2, Game.new .nineteen CHINESE = .ok g0 ∧ g0.tryPlay false (.play 18 0) = .ok (none, g1) ∧
    g1.tryPlay false .pass = .ok (none, g2) ∧ ∃ g3, Game.playU false (.play 19 0) g2 = .error .panic g3 ∧
    ∃ g4 g5 g6, g3.tryPlay false (.play 3 3) = .ok (none, g4) ∧ g4.tryPlay false (.play 17 0) = .ok (none, g5) ∧
      g5.tryPlay false (.play 4 4) = .ok (none, g6) ∧ g6.tryPlay false (.play 18 1) = panic := by
  obtain ⟨g0, e0, h⟩ := okAnd_iff.1 (show okAnd (Game.new .nineteen CHINESE) (fun g0 =>
      acceptedAnd (g0.tryPlay false (.play 18 0)) (fun g1 => acceptedAnd (g1.tryPlay false .pass) (fun g2 =>
      isPanic (U.toM (Game.playU false (.play 19 0)) g2) &&
      acceptedAnd ((U.after (Game.playU false (.play 19 0)) g2).tryPlay false (.play 3 3)) (fun g4 =>
      acceptedAnd (g4.tryPlay false (.play 17 0)) (fun g5 => acceptedAnd (g5.tryPlay false (.play 4 4)) (fun g6 =>
      isPanic (g6.tryPlay false (.play 18 1)))))))) = true by
    decide +kernel)
  obtain ⟨g1, e1, h⟩ := acceptedAnd_iff h
  obtain ⟨g2, e2, h⟩ := acceptedAnd_iff h
  rw [Bool.and_eq_true] at h
  obtain ⟨g4, e4, h'⟩ := acceptedAnd_iff h.2
  obtain ⟨g5, e5, h'⟩ := acceptedAnd_iff h'
  obtain ⟨g6, e6, h'⟩ := acceptedAnd_iff h'
  refine ⟨g0, g1, g2, e0, e1, e2, U.after (Game.playU false (.play 19 0)) g2, ?_, g4, g5, g6, e4, e5, e6, isPanic_iff h'⟩
  have hp := isPanic_iff h.1
  unfold U.toM at hp
  unfold U.after
  cases e : Game.playU false (.play 19 0) g2 with
  | ok a s => rw [e] at hp; cases hp
  | error f s => rw [e] at hp; cases hp; rfl

end Model
