import Verif.Proofs.View
/-!
# Removing captured groups after a stone is pushed
-/

namespace Model
open Bits (has)
open Spec (OnBoard Adj Linked HasLiberty)

/-! ### Counting stones -/

/-- Number of cells below `m` showing `c`. -/
def cnt (f : Nat → Option Color) (c : Color) (m : Nat) : Nat := (List.range m).countP (fun i => decide (f i = some c))

theorem countP_split {α} {p q r : α → Bool} : ∀ {l : List α}, (∀ a ∈ l, p a = (q a || r a)) →
    (∀ a ∈ l, ¬ (q a = true ∧ r a = true)) → l.countP p = l.countP q + l.countP r
  | [], _, _ => rfl
  | a :: l, h1, h2 => by
    have ih := countP_split (l := l) (fun b hb => h1 b (List.mem_cons_of_mem _ hb)) (fun b hb => h2 b (List.mem_cons_of_mem _ hb))
    have e1 := h1 a (by simp)
    have e2 := h2 a (by simp)
    rw [List.countP_cons, List.countP_cons, List.countP_cons, ih, e1]
    cases hq : q a <;> cases hr : r a <;> simp [hq, hr] at e2 ⊢ <;> omega

theorem nodup_length_countP {l : List Nat} {P : Nat → Bool} {m : Nat} (hnd : l.Nodup) (hlt : ∀ a ∈ l, a < m)
    (hm : ∀ i, P i = true ↔ i ∈ l) : l.length = (List.range m).countP P := by
  rw [List.countP_eq_length_filter]
  apply List.Perm.length_eq
  rw [List.perm_ext_iff_of_nodup hnd (List.Pairwise.filter _ List.nodup_range)]
  intro a
  rw [List.mem_filter, List.mem_range, hm]
  exact ⟨fun h => ⟨hlt a h, h⟩, fun h => h.2⟩

theorem Rep.numStones {g : Goban} (h : Rep g) {k : Nat} {grp : Group} (hk : g.ch k = some grp) :
    grp.numStones = (List.range 361).countP (fun i => decide (g.bd i = some k)) := by
  obtain ⟨l, hc⟩ := h.chain k grp hk
  rw [hc.num]
  apply nodup_length_countP hc.nodup (hc.lt h.nlen)
  intro i; rw [decide_eq_true_iff]; exact hc.mem i

theorem RemSpec.cnt {n g g' k} {grp : Group} (h : RemSpec n g g' k) (hI : Inv n g) (hk : g.ch k = some grp) (c : Color) :
    cnt g.col c 361 = cnt g'.col c 361 + (if grp.color = c then grp.numStones else 0) := by
  unfold Model.cnt
  rw [countP_split (p := fun i => decide (g.col i = some c)) (q := fun i => decide (g'.col i = some c))
    (r := fun i => decide (g.bd i = some k) && decide (grp.color = c))]
  · congr 1
    by_cases hc : grp.color = c
    · rw [if_pos hc, hI.rep.numStones hk]; simp [hc]
    · rw [if_neg hc]; simp [hc]
  · intro i _
    rw [h.col hI i]
    by_cases hi : g.bd i = some k
    · rw [if_pos hi, col_of_bd hi hk]; simp [hi]
    · rw [if_neg hi]; simp [hi]
  · intro i _
    rw [h.col hI i]
    by_cases hi : g.bd i = some k
    · rw [if_pos hi]; simp
    · rw [if_neg hi]; simp [hi]

/-- Component of a removed-stones pair for a colour. -/
def removedOf (r : Nat × Nat) : Color → Nat
  | .white => r.1
  | .black => r.2

theorem removedOf_add (r : Nat × Nat) (c d : Color) (m : Nat) :
    removedOf (Goban.addRemoved r c m) d = removedOf r d + (if c = d then m else 0) := by
  cases c <;> cases d <;> simp [removedOf, Goban.addRemoved]

/-! ### The capture loop -/

structure Capt (n : Dim) (g : Goban) (done : List Nat) (s : Goban.Captures) : Prop where
  inv : Inv n s.goban
  bd : ∀ i, s.goban.bd i = if (∃ k ∈ done, g.bd i = some k) then none else g.bd i
  ch : ∀ j gj, j ∉ done → g.ch j = some gj → ∃ l', s.goban.ch j = some { gj with liberties := l' } ∧
    ∀ x, has x gj.liberties = true → has x l' = true
  gone : ∀ j ∈ done, s.goban.ch j = none
  cnt : ∀ c, cnt g.col c 361 = cnt s.goban.col c 361 + removedOf s.removed c
  clen : s.goban.chains.length = g.chains.length

theorem captureStep_ok {dbg only1 : Bool} {n : Dim} {g : Goban} {done : List Nat} {s : Goban.Captures} {k : Nat} {gk : Group}
    (h : Capt n g done s) (hk : g.ch k = some gk) (hnew : k ∉ done) :
    ∃ s', Goban.captureStep dbg only1 s k = .ok s' ∧ Capt n g (done ++ [k]) s' ∧
      s'.ko = if gk.numStones == 1 && only1 then some (ptOf n gk.origin) else s.ko := by
  obtain ⟨l', hk', hh'⟩ := h.ch k gk hnew hk
  obtain ⟨g', e, hr⟩ := remove_spec (dbg := dbg) h.inv hk'
  have horig : Ix n gk.origin := by
    obtain ⟨l, hc⟩ := h.inv.rep.chain k _ hk'
    exact h.inv.off _ k ((hc.mem _).2 hc.origin_mem)
  refine ⟨{ removed := Goban.addRemoved s.removed gk.color gk.numStones,
            ko := if gk.numStones == 1 && only1 then some (ptOf n gk.origin) else s.ko, goban := g' }, ?_, ?_, rfl⟩
  · unfold Goban.captureStep
    rw [Goban.chainAt_ok hk', ok_bind]
    dsimp only
    rw [h.inv.size, oneTo2_ok h.inv.good horig]
    split
    · rw [map_ok, ok_bind, e, ok_bind]
    · rw [pure_bind', e, ok_bind]
  · refine ⟨hr.inv, ?_, ?_, ?_, ?_, hr.clen.trans h.clen⟩
    · intro i
      show g'.bd i = _
      rw [hr.bd]
      have hb := h.bd i
      by_cases hi : ∃ m ∈ done, g.bd i = some m
      · rw [if_pos hi] at hb
        rw [hb]
        obtain ⟨m, hm, hm'⟩ := hi
        rw [if_neg (by intro h'; cases h'), if_pos ⟨m, by simp [hm], hm'⟩]
      · rw [if_neg hi] at hb
        rw [hb]
        by_cases hik : g.bd i = some k
        · rw [if_pos hik, if_pos ⟨k, by simp, hik⟩]
        · rw [if_neg hik, if_neg]
          rintro ⟨m, hm, hm'⟩
          rcases List.mem_append.1 hm with hm | hm
          · exact hi ⟨m, hm, hm'⟩
          · rw [List.mem_singleton] at hm; subst hm; exact hik hm'
    · intro j gj hj hgj
      obtain ⟨l1, h1, h2⟩ := h.ch j gj (fun h' => hj (by simp [h'])) hgj
      obtain ⟨l2, h3, h4⟩ := hr.ch j _ (fun h' => hj (by simp [h'])) h1
      exact ⟨l2, h3, fun x hx => (h4 x).2 (Or.inl (h2 x hx))⟩
    · intro j hj
      rcases List.mem_append.1 hj with hj | hj
      · exact hr.chn j (h.gone j hj)
      · rw [List.mem_singleton] at hj; subst hj; exact hr.chk
    · intro c
      show _ = Model.cnt g'.col c 361 + _
      rw [h.cnt c, hr.cnt h.inv hk' c, removedOf_add]
      simp only
      omega

theorem capture_fold {dbg only1 : Bool} {n : Dim} {g : Goban} : ∀ (todo done : List Nat) (s : Goban.Captures),
    Capt n g done s → (done ++ todo).Nodup → (∀ k ∈ todo, ∃ gk, g.ch k = some gk) → 
    ∃ s', todo.foldlM (Goban.captureStep dbg only1) s = .ok s' ∧ Capt n g (done ++ todo) s' ∧
      (only1 = false → s'.ko = s.ko) := by
  intro todo
  induction todo with
  | nil => intro done s h _ _; exact ⟨s, rfl, by simpa using h, fun _ => rfl⟩
  | cons k todo ih =>
    intro done s h hnd hk
    obtain ⟨gk, hgk⟩ := hk k (by simp)
    have hnew : k ∉ done := by
      intro h'
      rw [List.nodup_append] at hnd
      exact hnd.2.2 k h' k (by simp) rfl
    obtain ⟨s1, e1, h1, k1⟩ := captureStep_ok (dbg := dbg) (only1 := only1) h hgk hnew
    obtain ⟨s2, e2, h2, k2⟩ := ih (done ++ [k]) s1 h1 (by simpa using hnd) (fun j hj => hk j (by simp [hj]))
    refine ⟨s2, by rw [List.foldlM_cons, e1, ok_bind, e2], by simpa using h2, ?_⟩
    intro ho
    rw [k2 ho, k1, ho]; simp

/-! ### A whole move on the board -/

/-- `push_wth_feedback` followed by `remove_captured_stones_aux`. -/
def Goban.move (dbg suicide : Bool) (g : Goban) (pt : Coord) (c : Color) : M Goban.Captures := do
  let f ← g.pushWthFeedback dbg pt c
  f.goban.removeCapturedStonesAux dbg suicide f.dead f.added

/-- Effect of a move on positions and counters. -/
structure MoveSpec (n : Dim) (g : Goban) (suicide : Bool) (p : Coord) (c : Color) (s : Goban.Captures) : Prop where
  inv : Inv n s.goban
  view : Spec.SameOn n s.goban.view (Spec.playLocal n suicide g.view p c)
  cnt : ∀ x, cnt g.col x 361 + (if x = c then 1 else 0) = cnt s.goban.col x 361 + removedOf s.removed x
  ko : ∀ q, s.ko = some q ↔ OnBoard n q ∧ ∀ r, OnBoard n r →
    ((g.view r = some c.opp ∧ s.goban.view r = none) ↔ r = q)
  clen : s.goban.chains.length ≤ g.chains.length + 1

theorem cnt_push {n g p c f} (hf : PushSpec n g p c f) (hp : p < 361) (hb : g.col p = none) (x : Color) :
    cnt f.goban.col x 361 = cnt g.col x 361 + (if x = c then 1 else 0) := by
  unfold cnt
  rw [countP_split (p := fun i => decide (f.goban.col i = some x)) (q := fun i => decide (g.col i = some x))
    (r := fun i => decide (i = p) && decide (x = c))]
  · congr 1
    by_cases hc : x = c
    · rw [if_pos hc]
      simp only [hc, decide_true, Bool.and_true]
      rw [← nodup_length_countP (l := [p]) (by simp) (by simpa using hp) (by simp)]
      rfl
    · rw [if_neg hc]; simp [hc]
  · intro i _
    rw [hf.col]
    by_cases hi : i = p
    · subst hi; rw [if_pos rfl, hb]; simp [eq_comm]
    · rw [if_neg hi]; simp [hi]
  · intro i _
    rintro ⟨h1, h2⟩
    simp only [decide_eq_true_eq, Bool.and_eq_true] at h1 h2
    rw [h2.1, hb] at h1; cases h1

theorem move_of_push {dbg suicide : Bool} {n : Dim} {g : Goban} {pt : Coord} {c : Color} (h : Inv n g) (hpt : OnBoard n pt)
    (hv : g.view pt = none) {f : Goban.Feedback} (ef : g.pushWthFeedback dbg pt c = .ok f)
    (hf : PushSpec n g (twoTo1dim n.sz pt) c f) :
    ∃ s, g.move dbg suicide pt c = .ok s ∧ MoveSpec n g suicide pt c s := by
  have hb := (h.view_none_iff hpt).1 hv
  have hn := h.good
  have hI := hf.inv
  generalize hpe : twoTo1dim n.sz pt = p at *
  have hpN : Ix n p := hpe ▸ twoTo1_lt h.good hpt
  have hp361 := h.lt361 hpN
  -- the pushed position
  have hvp : Spec.SameOn n f.goban.view (Spec.place g.view pt c) := by
    intro q hq
    rw [hI.view hq, hf.col]
    unfold Spec.place
    by_cases hqp : q = pt
    · subst hqp; rw [if_pos hpe, if_pos rfl]
    · rw [if_neg hqp, if_neg, h.view hq]
      intro h'; exact hqp (twoTo1_inj h.good hq hpt (h'.trans hpe.symm))
  obtain ⟨gt, hgt⟩ := hI.rep.live p f.added hf.added
  have hgtc : gt.color = c := by
    have := hf.col p
    rw [if_pos rfl, col_of_bd hf.added hgt] at this
    exact Option.some.inj this
  have hdl : ∀ k ∈ f.dead, ∃ gk, f.goban.ch k = some gk := by
    intro k hk
    obtain ⟨gk, h1, _⟩ := (hf.dead k).1 hk
    exact ⟨gk, h1⟩
  have htd : f.added ∉ f.dead := by
    intro h'
    obtain ⟨gk, h1, h2, _⟩ := (hf.dead _).1 h'
    rw [hgt] at h1; cases h1
    rw [hgtc] at h2; exact Color.ne_opp c h2
  have hC0 : Capt n f.goban [] { removed := (0, 0), ko := none, goban := f.goban } := by
    refine ⟨hI, by simp, ?_, by simp, ?_, rfl⟩
    · intro j gj _ hgj
      exact ⟨gj.liberties, hgj, fun _ h' => h'⟩
    · intro x; cases x <;> simp [removedOf]
  obtain ⟨s, es, hC, hko⟩ := capture_fold (dbg := dbg) (only1 := f.dead.length == 1) f.dead [] _ hC0 (by simpa using hf.dnd) hdl
  rw [List.nil_append] at hC
  obtain ⟨lt, hgt', hsub⟩ := hC.ch f.added gt htd hgt
  -- the position after captures
  have hcolC : ∀ i, s.goban.col i = if (∃ k ∈ f.dead, f.goban.bd i = some k) then none else f.goban.col i := by
    intro i
    have hb' := hC.bd i
    by_cases hi : ∃ k ∈ f.dead, f.goban.bd i = some k
    · rw [if_pos hi] at hb' ⊢; exact col_none hb'
    · rw [if_neg hi] at hb' ⊢
      cases hgi : f.goban.bd i with
      | none => rw [col_none hgi, col_none (hb'.trans hgi)]
      | some j =>
        obtain ⟨gj, hgj⟩ := hI.rep.live i j hgi
        obtain ⟨l', h1, _⟩ := hC.ch j gj (fun h' => hi ⟨j, h', hgi⟩) hgj
        rw [col_of_bd hgi hgj, col_of_bd (hb'.trans hgi) h1]
  -- which points are captured, on positions
  have hcap : ∀ q, OnBoard n q → ((∃ k ∈ f.dead, f.goban.bd (twoTo1dim n.sz q) = some k) ↔
      (f.goban.view q = some c.opp ∧ ¬ HasLiberty n f.goban.view q ∧
        ∃ r, Adj pt r ∧ OnBoard n r ∧ f.goban.view r = some c.opp ∧ Linked n f.goban.view r q)) := by
    intro q hq
    constructor
    · rintro ⟨k, hk, hbk⟩
      obtain ⟨gk, h1, h2, h3, j, hj, hbj⟩ := (hf.dead k).1 hk
      have hjN := hI.off j k hbj
      have hjO := ptOf_onBoard hjN
      have hvq : f.goban.view q = some c.opp := by rw [hI.view hq, col_of_bd hbk h1, h2]
      refine ⟨hvq, ?_, ptOf n j, ?_, hjO, ?_, ?_⟩
      · rw [hI.hasLiberty_iff h1 hq hbk, h3]; simp
      · have := ((mem_nbrs hn hpN).1 hj).2
        rwa [← hpe, ptOf_twoTo1 h.good hpt] at this
      · rw [hI.view_ptOf hjN, col_of_bd hbj h1, h2]
      · rw [hI.linked_iff hjO hq (by rw [twoTo1_ptOf]; exact hbj)]; exact hbk
    · rintro ⟨h1, h2, r, h3, h4, h5, h6⟩
      obtain ⟨k, gk, e1, e2, e3⟩ := hI.view_some h4 h5
      have hbq := (hI.linked_iff h4 hq e1).1 h6
      refine ⟨k, (hf.dead k).2 ⟨gk, e2, e3, ?_, _, ?_, e1⟩, hbq⟩
      · rw [hI.hasLiberty_iff e2 hq hbq] at h2
        simpa using h2
      · rw [← hpe]; exact adj_mem_nbrs hn hpt h4 h3
  have hviewC : Spec.SameOn n s.goban.view (Spec.captureAround n (Spec.place g.view pt c) pt c.opp) := by
    intro q hq
    rw [hC.inv.view hq, hcolC]
    unfold Spec.captureAround
    have hvq := hvp q hq
    have hiff : (∃ k ∈ f.dead, f.goban.bd (twoTo1dim n.sz q) = some k) ↔
        (Spec.place g.view pt c q = some c.opp ∧ ¬ HasLiberty n (Spec.place g.view pt c) q ∧
        ∃ r, Adj pt r ∧ OnBoard n r ∧ Spec.place g.view pt c r = some c.opp ∧ Linked n (Spec.place g.view pt c) r q) := by
      rw [hcap q hq, hvq]
      constructor
      · rintro ⟨a, b, r, c1, c2, c3, c4⟩
        exact ⟨a, fun h' => b (hasLiberty_congr (SameOn.symm hvp) hq h'), r, c1, c2, by rw [← hvp r c2]; exact c3,
          linked_congr hvp c2 c4⟩
      · rintro ⟨a, b, r, c1, c2, c3, c4⟩
        exact ⟨a, fun h' => b (hasLiberty_congr hvp hq h'), r, c1, c2, by rw [hvp r c2]; exact c3,
          linked_congr (SameOn.symm hvp) c2 c4⟩
    by_cases hq' : ∃ k ∈ f.dead, f.goban.bd (twoTo1dim n.sz q) = some k
    · rw [if_pos hq', if_pos (hiff.1 hq')]
    · rw [if_neg hq', if_neg (fun h' => hq' (hiff.2 h')), ← hI.view hq, hvq]
  have hbpC : s.goban.bd p = some f.added := by
    rw [hC.bd, if_neg, hf.added]
    rintro ⟨k, hk, hk'⟩
    rw [hf.added] at hk'; exact htd (Option.some.inj hk' ▸ hk)
  have hvg : ∀ r, OnBoard n r → g.view r = some c.opp → f.goban.view r = some c.opp ∧ r ≠ pt := by
    intro r hr hvr
    have hne : r ≠ pt := by rintro rfl; rw [hv] at hvr; cases hvr
    refine ⟨?_, hne⟩
    rw [hvp r hr]; unfold Spec.place; rw [if_neg hne]; exact hvr
  -- captured opposing stones
  have hcapt : ∀ r, OnBoard n r → ((g.view r = some c.opp ∧ s.goban.view r = none) ↔
      ∃ k ∈ f.dead, f.goban.bd (twoTo1dim n.sz r) = some k) := by
    intro r hr
    rw [hC.inv.view hr, hcolC]
    constructor
    · rintro ⟨h1, h2⟩
      apply Classical.byContradiction
      intro h3
      rw [if_neg h3, ← hI.view hr, (hvg r hr h1).1] at h2; cases h2
    · intro h1
      refine ⟨?_, if_pos h1⟩
      obtain ⟨h2, _⟩ := (hcap r hr).1 h1
      have hne : r ≠ pt := by
        rintro rfl
        rw [hvp _ hpt] at h2; unfold Spec.place at h2; rw [if_pos rfl] at h2
        exact Color.ne_opp c (Option.some.inj h2)
      rw [hvp r hr] at h2; unfold Spec.place at h2; rwa [if_neg hne] at h2
  -- if something was captured the new group has a liberty
  have hlive : f.dead ≠ [] → ({ gt with liberties := lt } : Group).isDead = false := by
    intro hne
    obtain ⟨k, hk⟩ := List.exists_mem_of_ne_nil _ hne
    obtain ⟨gk, h1, h2, h3, j, hj, hbj⟩ := (hf.dead k).1 hk
    rw [← Bool.not_eq_true, isDead_iff]
    intro h'
    have := (hC.inv.libs f.added _ hgt' j).2 ⟨nbrs_lt hn hpN hj, by rw [hC.bd, if_pos ⟨k, hk, hbj⟩], p,
      nbrs_symm hn hpN hj, hbpC⟩
    rw [h' j] at this; cases this
  -- the ko point of the loop
  have hkoC : ∀ q, s.ko = some q ↔ OnBoard n q ∧ ∀ r, OnBoard n r →
      ((g.view r = some c.opp ∧ s.goban.view r = none) ↔ r = q) := by
    intro q
    rcases hd : f.dead with _ | ⟨k, _ | ⟨k2, rest⟩⟩
    · rw [hko (by rw [hd]; rfl)]
      constructor
      · intro h'; cases h'
      · rintro ⟨h1, h2⟩
        obtain ⟨k, hk, _⟩ := (hcapt q h1).1 ((h2 q h1).2 rfl)
        rw [hd] at hk; simp at hk
    · -- exactly one group
      obtain ⟨gk, hgk, hgc, _, j, hj, hbj⟩ := (hf.dead k).1 (by rw [hd]; simp)
      obtain ⟨s1, e1, _, k1⟩ := captureStep_ok (dbg := dbg) (only1 := f.dead.length == 1) hC0 hgk (by simp)
      have hs1 : s1 = s := by
        rw [hd, List.foldlM_cons] at es
        rw [hd] at e1
        rw [e1, ok_bind] at es
        exact Except.ok.inj es
      rw [← hs1, k1]
      obtain ⟨l, hl⟩ := hI.rep.chain k gk hgk
      have hmem : ∀ r, OnBoard n r → ((g.view r = some c.opp ∧ s1.goban.view r = none) ↔ twoTo1dim n.sz r ∈ l) := by
        intro r hr
        rw [hs1, hcapt r hr, hd, ← hl.mem]
        simp
      have horig : Ix n gk.origin := hI.off _ k ((hl.mem _).2 hl.origin_mem)
      by_cases h1 : gk.numStones = 1
      · rw [if_pos (by simp [h1, hd])]
        have hl1 : l = [gk.origin] := by
          have hlen : l.length = 1 := by rw [← hl.num, h1]
          match l, hlen, hl.head with
          | [a], _, hh => simp at hh; rw [hh]
        constructor
        · intro he
          have hq : ptOf n gk.origin = q := Option.some.inj he
          rw [← hq]
          refine ⟨ptOf_onBoard horig, ?_⟩
          intro r hr
          rw [hmem r hr, hl1, List.mem_singleton]
          constructor
          · intro h'; rw [← h', ptOf_twoTo1 h.good hr]
          · rintro rfl; exact twoTo1_ptOf
        · rintro ⟨hq, h2⟩
          have := (hmem q hq).1 ((h2 q hq).2 rfl)
          rw [hl1, List.mem_singleton] at this
          rw [← this, ptOf_twoTo1 h.good hq]
      · rw [if_neg (by simp [h1])]
        constructor
        · intro h'; cases h'
        · rintro ⟨hq, h2⟩
          exfalso
          apply h1
          rw [hl.num]
          have : ∀ a ∈ l, a = twoTo1dim n.sz q := by
            intro a ha
            have haN := hI.off a k ((hl.mem a).2 ha)
            have := (h2 _ (ptOf_onBoard haN)).1 ((hmem _ (ptOf_onBoard haN)).2 (by rw [twoTo1_ptOf]; exact ha))
            rw [← this, twoTo1_ptOf]
          match hl3 : l, hl.walk.ne_nil, hl.nodup with
          | [a], _, _ => rfl
          | a :: b :: t, _, hnd =>
            exfalso
            have ha := this a (by simp)
            have hb := this b (by simp)
            rw [List.nodup_cons] at hnd
            exact hnd.1 (by rw [ha, ← hb]; simp)
    · -- several groups
      have hne : (f.dead.length == 1) = false := by rw [hd]; simp
      rw [hko hne]
      constructor
      · intro h'; cases h'
      · rintro ⟨hq, h2⟩
        exfalso
        have hall : ∀ k ∈ f.dead, f.goban.bd (twoTo1dim n.sz q) = some k := by
          intro k hk
          obtain ⟨gk, hgk, _, _, j, hj, hbj⟩ := (hf.dead k).1 hk
          have hjN := hI.off j k hbj
          have := (h2 _ (ptOf_onBoard hjN)).1 ((hcapt _ (ptOf_onBoard hjN)).2 ⟨k, hk, by rw [twoTo1_ptOf]; exact hbj⟩)
          rw [← this, twoTo1_ptOf]; exact hbj
        have h3 := hall k (by rw [hd]; simp)
        have h4 := hall k2 (by rw [hd]; simp)
        rw [h3] at h4
        have := hf.dnd
        rw [hd, List.nodup_cons] at this
        exact this.1 (by rw [Option.some.inj h4]; simp)
  have hclenC : s.goban.chains.length ≤ g.chains.length + 1 := by rw [hC.clen]; exact hf.clen
  have hcntC : ∀ x, cnt g.col x 361 + (if x = c then 1 else 0) = cnt s.goban.col x 361 + removedOf s.removed x := by
    intro x
    rw [← cnt_push hf hp361 (col_none hb) x]
    exact hC.cnt x
  unfold Goban.move
  rw [ef, ok_bind]
  unfold Goban.removeCapturedStonesAux
  dsimp only
  rw [es, ok_bind, Goban.chainAt_ok hgt', ok_bind]
  have hlp := hC.inv.hasLiberty_iff hgt' hpt (by rw [hpe]; exact hbpC)
  have hlp' : HasLiberty n (Spec.captureAround n (Spec.place g.view pt c) pt c.opp) pt ↔
      ({ gt with liberties := lt } : Group).isDead = false := by
    rw [← hlp]
    exact ⟨fun h' => hasLiberty_congr (SameOn.symm hviewC) hpt h', fun h' => hasLiberty_congr hviewC hpt h'⟩
  by_cases hsd : (suicide && ({ gt with liberties := lt } : Group).isDead) = true
  · rw [if_pos hsd]
    rw [Bool.and_eq_true] at hsd
    obtain ⟨g', er, hr⟩ := remove_spec (dbg := dbg) hC.inv hgt'
    rw [er, ok_bind]
    have hdn : f.dead = [] := by
      apply Classical.byContradiction
      intro h'
      rw [hlive h'] at hsd; simp at hsd
    refine ⟨_, rfl, hr.inv, ?_, ?_, ?_, ?_⟩
    · intro q hq
      show g'.view q = _
      rw [hr.inv.view hq, hr.col hC.inv]
      unfold Spec.playLocal
      simp only [hsd.1, if_true]
      unfold Spec.removeGroupIfDead
      have hnl : ¬ HasLiberty n (Spec.captureAround n (Spec.place g.view pt c) pt c.opp) pt := by
        rw [hlp', hsd.2]; simp
      have hlink : Linked n (Spec.captureAround n (Spec.place g.view pt c) pt c.opp) pt q ↔
          s.goban.bd (twoTo1dim n.sz q) = some f.added := by
        rw [← hC.inv.linked_iff hpt hq (by rw [hpe]; exact hbpC)]
        exact ⟨fun h' => linked_congr (SameOn.symm hviewC) hpt h', fun h' => linked_congr hviewC hpt h'⟩
      by_cases hq' : s.goban.bd (twoTo1dim n.sz q) = some f.added
      · rw [if_pos hq', if_pos ⟨hlink.2 hq', hnl⟩]
      · rw [if_neg hq', if_neg (fun h' => hq' (hlink.1 h'.1)), ← hC.inv.view hq]
        exact hviewC q hq
    · intro x
      show _ = cnt g'.col x 361 + removedOf (Goban.addRemoved s.removed gt.color gt.numStones) x
      rw [hcntC x, hr.cnt hC.inv hgt' x, removedOf_add]
      simp only
      omega
    · intro q
      show (none : Option Coord) = some q ↔ _
      constructor
      · intro h'; cases h'
      · rintro ⟨hq, h2⟩
        exfalso
        have h3 := (h2 q hq).2 rfl
        rw [show (({ removed := Goban.addRemoved s.removed gt.color gt.numStones, ko := none, goban := g' } :
          Goban.Captures).goban) = g' from rfl, hr.inv.view hq, hr.col hC.inv] at h3
        obtain ⟨h4, h5⟩ := h3
        have hvq := (hvg q hq h4).1
        have hcq : s.goban.col (twoTo1dim n.sz q) = some c.opp := by
          rw [hcolC, if_neg, ← hI.view hq, hvq]
          rw [hdn]; simp
        by_cases hq' : s.goban.bd (twoTo1dim n.sz q) = some f.added
        · rw [col_of_bd hq' hgt'] at hcq
          simp only [hgtc] at hcq
          exact Color.ne_opp c (Option.some.inj hcq)
        · rw [if_neg hq', hcq] at h5; cases h5
    · show g'.chains.length ≤ _
      rw [hr.clen]; exact hclenC
  · rw [if_neg hsd]
    refine ⟨s, rfl, hC.inv, ?_, hcntC, hkoC, hclenC⟩
    intro q hq
    rw [hviewC q hq]
    unfold Spec.playLocal
    cases hs : suicide
    · simp
    · simp only [if_true]
      unfold Spec.removeGroupIfDead
      rw [if_neg]
      rintro ⟨_, h'⟩
      apply h'
      rw [hlp']
      rw [hs] at hsd
      simpa using hsd

theorem move_total {dbg suicide : Bool} {n : Dim} {g : Goban} {pt : Coord} {c : Color} (h : Inv n g) (hpt : OnBoard n pt)
    (hv : g.view pt = none) :
    (∃ s, g.move dbg suicide pt c = .ok s ∧ MoveSpec n g suicide pt c s) ∨
      (g.move dbg suicide pt c = panic ∧ g.chains.length = 65535) := by
  rcases push_total (dbg := dbg) (c := c) h hpt ((h.view_none_iff hpt).1 hv) with ⟨f, ef, hf⟩ | ⟨hp, hl⟩
  · exact Or.inl (move_of_push h hpt hv ef hf)
  · exact Or.inr ⟨by unfold Goban.move; rw [hp]; rfl, hl⟩

end Model
