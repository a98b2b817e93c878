import Verif.Model.Iter
import Verif.Props.Board
/-!
# The stone iterator, call by call: C66
-/

namespace Model
open Spec (OnBoard)

variable {dbg : Bool} {n : Dim} {m : Nat}

theorem step_none {ns : List Nat} {o c : Nat} : CircularGroupIter.step dbg ⟨ns, o, none, c⟩ = .ok (none, ⟨ns, o, none, c⟩) := by
  cases dbg <;> rfl

theorem step_some {ns : List Nat} {o i c : Nat} : CircularGroupIter.step dbg ⟨ns, o, some i, c⟩ =
    match ns[i]? with
    | none => panic
    | some v => if v = o then .ok (some i, ⟨ns, o, none, c⟩) else if dbg && v == i then panic
      else .ok (some i, ⟨ns, o, some v, c⟩) := by
  unfold CircularGroupIter.step
  dsimp only
  cases ns[i]? with
  | none => rfl
  | some v =>
    dsimp only
    by_cases hv : v = o
    · simp [hv, debugAssert]
    · by_cases hd : dbg = true
      · by_cases hi : v = i
        · subst hi
          simp [hv, hd, debugAssert, panic]
        · simp [hv, hd, hi, debugAssert]
      · simp [hv, hd, debugAssert]

theorem steps_nil {ns : List Nat} {o c : Nat} : ∀ (j : Nat), CircularGroupIter.steps dbg j ⟨ns, o, none, c⟩ =
    .ok ((List.range j).map (fun _ => none), ⟨ns, o, none, c⟩)
  | 0 => rfl
  | j + 1 => by
    unfold CircularGroupIter.steps
    rw [step_none, ok_bind]
    dsimp only
    rw [steps_nil j, ok_bind, List.range_succ_eq_map, List.map_cons, List.map_map]
    rfl

theorem steps_ok {ns : List Nat} {o c : Nat} : ∀ {fuel cur : Nat} {l : List Nat}, Group.iterFrom dbg ns o fuel cur = .ok l →
    ∀ j, CircularGroupIter.steps dbg j ⟨ns, o, some cur, c⟩ = .ok ((List.range j).map (fun i => l[i]?), ⟨ns, o,
      if j = 0 then some cur else l[j]?, c⟩)
  | 0, _, _, h, _ => by cases h
  | fuel + 1, cur, l, h, 0 => rfl
  | fuel + 1, cur, l, h, j + 1 => by
    unfold Group.iterFrom at h
    unfold CircularGroupIter.steps
    rw [step_some]
    cases hv : ns[cur]? with
    | none => rw [hv] at h; cases h
    | some v =>
      rw [hv] at h
      dsimp only at h ⊢
      by_cases h1 : v = o
      · rw [if_pos h1] at h
        cases h
        rw [if_pos h1, ok_bind]
        dsimp only
        rw [steps_nil j, ok_bind, List.range_succ_eq_map, List.map_cons, List.map_map]
        rfl
      · rw [if_neg h1] at h ⊢
        by_cases h2 : (dbg && v == cur) = true
        · rw [if_pos h2] at h; cases h
        · rw [if_neg h2] at h ⊢
          obtain ⟨rest, e, h⟩ := bind_eq_ok h
          cases h
          rw [ok_bind]
          dsimp only
          rw [steps_ok e j, ok_bind, List.range_succ_eq_map, List.map_cons, List.map_map]
          have hl : rest.head? = some v := by
            cases fuel with
            | zero => cases e
            | succ f =>
              unfold Group.iterFrom at e
              cases hv' : ns[v]? with
              | none => rw [hv'] at e; cases e
              | some w =>
                rw [hv'] at e
                dsimp only at e
                split at e
                · cases e; rfl
                · split at e
                  · cases e
                  · obtain ⟨r', _, e⟩ := bind_eq_ok e
                    cases e; rfl
          refine congrArg Except.ok (Prod.ext rfl ?_)
          dsimp only
          rw [if_neg (Nat.succ_ne_zero j), List.getElem?_cons_succ]
          split
          · rename_i hj
            subst hj
            rw [← hl]
            cases rest <;> rfl
          · rfl

theorem steps_panic {ns : List Nat} {o c : Nat} : ∀ {fuel cur : Nat}, Group.iterFrom dbg ns o fuel cur = panic →
    ∃ j, ∃ xs : List Nat, ∃ it, CircularGroupIter.steps dbg j ⟨ns, o, some cur, c⟩ = .ok (xs.map some, it) ∧ it.step dbg = panic
  | 0, _, h => by cases h
  | fuel + 1, cur, h => by
    unfold Group.iterFrom at h
    have hs := step_some (dbg := dbg) (ns := ns) (o := o) (i := cur) (c := c)
    cases hv : ns[cur]? with
    | none => exact ⟨0, [], _, rfl, by rw [hs, hv]⟩
    | some v =>
      rw [hv] at h hs
      dsimp only at h hs
      by_cases h1 : v = o
      · rw [if_pos h1] at h; cases h
      · rw [if_neg h1] at h hs
        by_cases h2 : (dbg && v == cur) = true
        · exact ⟨0, [], _, rfl, by rw [hs, if_pos h2]⟩
        · rw [if_neg h2] at h hs
          have h' : Group.iterFrom dbg ns o fuel v = panic := by
            cases e : Group.iterFrom dbg ns o fuel v with
            | ok l => rw [e] at h; cases h
            | error f => rw [e] at h; exact h
          obtain ⟨j, xs, it, e1, e2⟩ := steps_panic (c := c) h'
          refine ⟨j + 1, cur :: xs, it, ?_, e2⟩
          unfold CircularGroupIter.steps
          rw [hs, ok_bind]
          dsimp only
          rw [e1]
          rfl

/-! ### Enough fuel -/

/-- The first amount of fuel with which the walk ends, in a value or in a panic. -/
def EndsAt (dbg : Bool) (ns : List Nat) (o : Nat) (t cur : Nat) : Prop :=
  Group.iterFrom dbg ns o (t + 1) cur ≠ .error .diverge ∧ Group.iterFrom dbg ns o t cur = .error .diverge

theorem iterFrom_mono {ns : List Nat} {o : Nat} : ∀ {fuel cur : Nat}, Group.iterFrom dbg ns o fuel cur ≠ .error .diverge →
    Group.iterFrom dbg ns o (fuel + 1) cur = Group.iterFrom dbg ns o fuel cur
  | 0, _, h => absurd rfl h
  | fuel + 1, cur, h => by
    rw [Group.iterFrom] at h
    rw [Group.iterFrom, Group.iterFrom]
    cases hv : ns[cur]? with
    | none => rfl
    | some v =>
      rw [hv] at h
      dsimp only at h ⊢
      by_cases h1 : v = o
      · rw [if_pos h1, if_pos h1]
      · rw [if_neg h1] at h
        rw [if_neg h1, if_neg h1]
        by_cases h2 : (dbg && v == cur) = true
        · rw [if_pos h2, if_pos h2]
        · rw [if_neg h2] at h
          rw [if_neg h2, if_neg h2, iterFrom_mono]
          intro h3
          rw [h3] at h
          exact h rfl

theorem iterFrom_mono' {ns : List Nat} {o fuel cur : Nat} (h : Group.iterFrom dbg ns o fuel cur ≠ .error .diverge) :
    ∀ k, Group.iterFrom dbg ns o (fuel + k) cur = Group.iterFrom dbg ns o fuel cur
  | 0 => rfl
  | k + 1 => by
    have := iterFrom_mono' h k
    rw [← Nat.add_assoc, iterFrom_mono (by rw [this]; exact h), this]

theorem EndsAt.inj {ns : List Nat} {o t t' cur : Nat} (h : EndsAt dbg ns o t cur) (h' : EndsAt dbg ns o t' cur) : t = t' := by
  rcases Nat.lt_trichotomy t t' with hlt | heq | hlt
  · obtain ⟨k, hk⟩ := Nat.exists_eq_add_of_le (show t + 1 ≤ t' from hlt)
    have := iterFrom_mono' h.1 k
    rw [← hk, h'.2] at this
    exact absurd this.symm h.1
  · exact heq
  · obtain ⟨k, hk⟩ := Nat.exists_eq_add_of_le (show t' + 1 ≤ t from hlt)
    have := iterFrom_mono' h'.1 k
    rw [← hk, h.2] at this
    exact absurd this.symm h'.1

theorem EndsAt.next {ns : List Nat} {o t cur : Nat} (h : EndsAt dbg ns o (t + 1) cur) :
    cur < ns.length ∧ ∃ v, EndsAt dbg ns o t v := by
  obtain ⟨h1, h2⟩ := h
  rw [Group.iterFrom] at h1 h2
  cases hv : ns[cur]? with
  | none => rw [hv] at h2; cases h2
  | some v =>
    refine ⟨(List.getElem?_eq_some_iff.1 hv).1, v, ?_⟩
    rw [hv] at h1 h2
    dsimp only at h1 h2
    by_cases h3 : v = o
    · rw [if_pos h3] at h2; cases h2
    · rw [if_neg h3] at h1 h2
      by_cases h4 : (dbg && v == cur) = true
      · rw [if_pos h4] at h2; cases h2
      · rw [if_neg h4] at h1 h2
        constructor
        · intro h5; rw [h5] at h1; exact h1 rfl
        · cases e : Group.iterFrom dbg ns o t v with
          | ok l => rw [e] at h2; cases h2
          | error f => rw [e] at h2; exact h2

theorem EndsAt.visits {ns : List Nat} {o : Nat} : ∀ {t cur : Nat}, EndsAt dbg ns o t cur →
    ∃ f : Nat → Nat, ∀ i, i < t → f i < ns.length ∧ EndsAt dbg ns o (i + 1) (f i)
  | 0, _, _ => ⟨id, fun i hi => absurd hi (Nat.not_lt_zero i)⟩
  | t + 1, cur, h => by
    obtain ⟨h1, v, h2⟩ := h.next
    obtain ⟨f, hf⟩ := h2.visits
    refine ⟨fun i => if i = t then cur else f i, fun i hi => ?_⟩
    by_cases hit : i = t
    · subst hit; simp only [if_true]; exact ⟨h1, h⟩
    · simp only [hit, if_false]; exact hf i (by omega)

theorem EndsAt.le {ns : List Nat} {o t cur : Nat} (h : EndsAt dbg ns o t cur) : t ≤ ns.length := by
  obtain ⟨f, hf⟩ := h.visits
  have hnd : ((List.range t).map f).Nodup := by
    refine List.Pairwise.map _ ?_ (List.Pairwise.and_mem.1 (List.nodup_range (n := t)))
    rintro a b ⟨ha, hb, hne⟩ hab
    rw [List.mem_range] at ha hb
    have h1 := (hf a ha).2
    have h2 := (hf b hb).2
    rw [hab] at h1
    exact hne (Nat.succ.inj (h1.inj h2))
  have := nodup_length_le hnd (m := ns.length) (fun x hx => by
    obtain ⟨i, hi, rfl⟩ := List.mem_map.1 hx
    exact (hf i (List.mem_range.1 hi)).1)
  simpa using this

/-- A walk that has not ended after `ns.length + 1` steps never ends. -/
theorem iterFrom_diverge {ns : List Nat} {o cur : Nat} (h : Group.iterFrom dbg ns o (ns.length + 1) cur = .error .diverge) :
    ∀ fuel, Group.iterFrom dbg ns o fuel cur = .error .diverge := by
  intro fuel
  apply Classical.byContradiction
  intro hf
  have : ∃ t, EndsAt dbg ns o t cur := by
    induction fuel with
    | zero => exact absurd rfl hf
    | succ f ih =>
      by_cases h' : Group.iterFrom dbg ns o f cur = .error .diverge
      · exact ⟨f, hf, h'⟩
      · exact ih h'
  obtain ⟨t, ht⟩ := this
  obtain ⟨k, hk⟩ := Nat.exists_eq_add_of_le (show t + 1 ≤ ns.length + 1 from Nat.succ_le_succ ht.le)
  have := iterFrom_mono' ht.1 k
  rw [← hk, h] at this
  exact ht.1 this.symm

theorem steps_diverge {ns : List Nat} {o c : Nat} : ∀ (j : Nat) {cur : Nat}, (∀ fuel, Group.iterFrom dbg ns o fuel cur = .error .diverge) →
    ∃ xs : List Nat, ∃ it, CircularGroupIter.steps dbg j ⟨ns, o, some cur, c⟩ = .ok (xs.map some, it)
  | 0, cur, _ => ⟨[], _, rfl⟩
  | j + 1, cur, h => by
    have hs := step_some (dbg := dbg) (ns := ns) (o := o) (i := cur) (c := c)
    have h1 := h 1
    rw [Group.iterFrom] at h1
    unfold CircularGroupIter.steps
    rw [hs]
    cases hv : ns[cur]? with
    | none => rw [hv] at h1; cases h1
    | some v =>
      rw [hv] at h1
      dsimp only at h1 ⊢
      by_cases h3 : v = o
      · rw [if_pos h3] at h1; cases h1
      · rw [if_neg h3] at h1 ⊢
        by_cases h4 : (dbg && v == cur) = true
        · rw [if_pos h4] at h1; cases h1
        · rw [if_neg h4, ok_bind]
          dsimp only
          have hn : ∀ fuel, Group.iterFrom dbg ns o fuel v = .error .diverge := by
            intro fuel
            have h5 := h (fuel + 1)
            rw [Group.iterFrom, hv] at h5
            dsimp only at h5
            rw [if_neg h3, if_neg h4] at h5
            cases e : Group.iterFrom dbg ns o fuel v with
            | ok l => rw [e] at h5; cases h5
            | error f => rw [e] at h5; exact h5
          obtain ⟨xs, it, e⟩ := steps_diverge j hn
          rw [e]
          exact ⟨cur :: xs, it, rfl⟩

/-! ## C66 -/

/-- **C66**, for any group and any array of links: if the collected walk is `l`, the calls of `next` return the elements of `l` in
order and `None` ever after. (`l[i]?` is `none` from `i = l.length` on.) -/
theorem C66_iter_returns {grp : Group} {ns : List Nat} {l : List Nat} (e : grp.iter dbg ns = .ok l) (j : Nat) :
    ∃ it, (grp.circularIter ns).steps dbg j = .ok ((List.range j).map (fun i => l[i]?), it) :=
  ⟨_, steps_ok e j⟩

/-- **C66**: if collecting the walk panics, some call of `next` panics, and the calls before it return indices. -/
theorem C66_iter_panics {grp : Group} {ns : List Nat} (e : grp.iter dbg ns = panic) :
    ∃ j, ∃ xs : List Nat, ∃ it, (grp.circularIter ns).steps dbg j = .ok (xs.map some, it) ∧ it.step dbg = panic :=
  steps_panic e

/-- **C66**: if the model reports that collecting does not end, it does not: every call of `next` returns an index. -/
theorem C66_iter_never_ends {grp : Group} {ns : List Nat} (e : grp.iter dbg ns = .error .diverge) (j : Nat) :
    ∃ xs : List Nat, ∃ it, (grp.circularIter ns).steps dbg j = .ok (xs.map some, it) :=
  steps_diverge j (iterFrom_diverge e)

/-- The three behaviours: a closed walk of three, a walk that leaves the array, a walk caught in a cycle past its origin (which a
debug build detects only if the cycle has length one). -/
example : (Group.new .black 0).iter true [2, 0, 1] = .ok [0, 2, 1] ∧ (Group.new .black 0).iter true [1, 5, 0] = panic ∧
    (Group.new .black 0).iter true [1, 2, 1] = .error .diverge ∧ (Group.new .black 0).iter true [1, 1] = panic ∧
    (Group.new .black 0).iter false [1, 1] = .error .diverge := by decide +kernel

theorem chainStones_steps {it : ChainStones} {l : List Nat} {ss : List Stone} (hmap : l.mapM (fun e => do
      let c ← oneTo2dim it.size e
      .ok ({ coord := c, color := it.color } : Stone)) = .ok ss) : ∀ (j a : Nat) (inner : CircularGroupIter), (∀ k, ∃ it',
      inner.steps dbg k = .ok ((List.range k).map (fun i => l[a + i]?), it')) → ∃ it',
      ChainStones.steps dbg j { it with inner := inner } = .ok ((List.range j).map (fun i => ss[a + i]?), it') ∧
        it'.inner.numStones = inner.numStones
  | 0, a, inner, _ => ⟨_, rfl, rfl⟩
  | j + 1, a, inner, h => by
    have hget : ∀ i : Nat, (∀ x, l[i]? = some x → ∃ c, oneTo2dim it.size x = .ok c ∧
        ss[i]? = some ({ coord := c, color := it.color } : Stone)) ∧
        (l[i]? = none → ss[i]? = none) := by
      clear h
      induction l generalizing ss with
      | nil => cases hmap; intro i; exact ⟨by simp, by simp⟩
      | cons x l ih =>
        rw [List.mapM_cons] at hmap
        obtain ⟨s, e1, hmap⟩ := bind_eq_ok hmap
        obtain ⟨ss', e2, hmap⟩ := bind_eq_ok hmap
        cases hmap
        obtain ⟨c, e3, e1⟩ := bind_eq_ok e1
        cases e1
        intro i
        cases i with
        | zero =>
          refine ⟨fun y hy => ?_, by simp⟩
          rw [List.getElem?_cons_zero] at hy; cases hy
          exact ⟨c, e3, rfl⟩
        | succ i =>
          rw [List.getElem?_cons_succ, List.getElem?_cons_succ]
          exact ih e2 i
    obtain ⟨it1, e1⟩ := h 1
    unfold CircularGroupIter.steps at e1
    obtain ⟨⟨o, inner'⟩, e2, e1⟩ := bind_eq_ok e1
    have ho : o = l[a]? := by
      have := e1
      unfold CircularGroupIter.steps at this
      have := congrArg Prod.fst (Except.ok.inj this)
      have := List.cons.inj this
      simpa using this.1
    have hn : inner'.numStones = inner.numStones := by
      clear h e1
      obtain ⟨ns, o', nx, c⟩ := inner
      cases nx with
      | none => rw [step_none] at e2; cases e2; rfl
      | some i =>
        rw [step_some] at e2
        split at e2
        · cases e2
        · split at e2
          · cases e2; rfl
          · split at e2
            · cases e2
            · cases e2; rfl
    have h' : ∀ k, ∃ it', inner'.steps dbg k = .ok ((List.range k).map (fun i => l[a + 1 + i]?), it') := by
      intro k
      obtain ⟨it2, e⟩ := h (k + 1)
      unfold CircularGroupIter.steps at e
      rw [e2, ok_bind] at e
      dsimp only at e
      obtain ⟨⟨os, it3⟩, e3, e⟩ := bind_eq_ok e
      refine ⟨it3, ?_⟩
      rw [e3]
      have := congrArg Prod.fst (Except.ok.inj e)
      dsimp only at this
      rw [List.range_succ_eq_map, List.map_cons, List.map_map] at this
      have := (List.cons.inj this).2
      refine congrArg Except.ok (Prod.ext ?_ rfl)
      dsimp only
      rw [this]
      apply List.map_congr_left
      intro i _
      show l[a + (i + 1)]? = _
      congr 1; omega
    obtain ⟨it', e3, hn'⟩ := chainStones_steps (it := it) hmap j (a + 1) inner' h'
    refine ⟨it', ?_, hn'.trans hn⟩
    have hhead : ChainStones.step dbg { it with inner := inner } = .ok (ss[a]?, { it with inner := inner' }) := by
      unfold ChainStones.step
      dsimp only
      rw [e2, ok_bind]
      subst ho
      dsimp only
      cases hl : l[a]? with
      | none => rw [(hget a).2 hl]
      | some x =>
        obtain ⟨c, e4, e5⟩ := (hget a).1 x hl
        dsimp only
        rw [e4, e5]
        rfl
    unfold ChainStones.steps
    rw [hhead, ok_bind]
    dsimp only
    rw [e3, ok_bind, List.range_succ_eq_map, List.map_cons, List.map_map]
    refine congrArg Except.ok (Prod.ext ?_ rfl)
    dsimp only
    congr 1
    apply List.map_congr_left
    intro i _
    show _ = ss[a + (i + 1)]?
    congr 1; omega

/-- **C66**, on the boards: calling `next` on the iterator of `chain_stones` for a group of the board gives its stones in order, each
once, then `None` ever after; `size_hint` always reports the number of stones of the group. -/
theorem C66_chain_stones {g : Goban} (h : Board dbg n m g) {k : Nat} (hk : g.Live k) :
    ∃ it ss, g.chainStonesIter k = .ok it ∧ g.chainStonesIdx dbg k = .ok ss ∧ 0 < ss.length ∧
      (ss.map Stone.coord).Nodup ∧ ∀ j, ∃ it', it.steps dbg j = .ok ((List.range j).map (fun i => ss[i]?), it') ∧
        it'.sizeHint = (ss.length, some ss.length) := by
  obtain ⟨grp, hg⟩ := hk
  have hI := h.inv.1
  obtain ⟨ss, hs⟩ := group_spec (dbg := dbg) hI (live_ch.1 hg)
  have e := hs.stones
  refine ⟨_, ss, by unfold Goban.chainStonesIter; rw [hg]; rfl, e, List.length_pos_iff.2 hs.ne, hs.nodup, fun j => ?_⟩
  unfold Goban.chainStonesIdx at e
  rw [hg, ok_bind] at e
  obtain ⟨l, e1, e2⟩ := bind_eq_ok e
  obtain ⟨it', e3, hn⟩ := chainStones_steps (dbg := dbg) (it := ⟨grp.circularIter g.nextStone, g.size, grp.color⟩) e2 j 0
    (grp.circularIter g.nextStone) (fun k => by
      obtain ⟨it, e⟩ := C66_iter_returns e1 k
      exact ⟨it, by simpa using e⟩)
  refine ⟨it', by simpa using e3, ?_⟩
  have : it'.inner.numStones = ss.length := by rw [hn, hs.len]; rfl
  unfold ChainStones.sizeHint CircularGroupIter.sizeHint
  rw [this]

/-- The full statement of **C66** for `size_hint`: at any moment it tells how many stones are still to come. Refuted by
`C66_size_hint_false`. -/
def C66Full (dbg : Bool) (g : Goban) (k : Nat) : Prop := ∀ it ss j os it', g.chainStonesIter k = .ok it →
  g.chainStonesIdx dbg k = .ok ss → it.steps dbg j = .ok (os, it') → it'.sizeHint = (ss.length - j, some (ss.length - j))

/-- **C66**, the part that holds: the hint is right before the first call of `next`. Missing: after a call. -/
theorem C66_size_hint_partial {g : Goban} (h : Board dbg n m g) {k : Nat} (hk : g.Live k) :
    ∃ it ss, g.chainStonesIter k = .ok it ∧ g.chainStonesIdx dbg k = .ok ss ∧ it.sizeHint = (ss.length, some ss.length) := by
  obtain ⟨it, ss, h1, h2, _, _, h3⟩ := C66_chain_stones h hk
  obtain ⟨it', e, h4⟩ := h3 0
  unfold ChainStones.steps at e
  cases e
  exact ⟨it, ss, h1, h2, h4⟩

/-- **C66** is false for every group of every board: after any number of calls the hint still reports all the stones. -/
theorem C66_size_hint_false {g : Goban} (h : Board dbg n m g) {k : Nat} (hk : g.Live k) : ¬ C66Full dbg g k := by
  obtain ⟨it, ss, h1, h2, h0, _, h3⟩ := C66_chain_stones h hk
  obtain ⟨it', e, h4⟩ := h3 1
  intro hf
  have := hf it ss 1 _ it' h1 h2 e
  rw [h4] at this
  have := congrArg Prod.fst this
  dsimp only at this
  omega

/-- A group of two stones: two calls return the stones, the third and fourth return `None`, and the hint says 2 all along. -/
example : ∃ g, Board true 5 2 g ∧ okAnd (do
    let it ← g.chainStonesIter 0
    let r ← it.steps true 4
    .ok (it.sizeHint, r)) (fun r => r.1 == (2, some 2) && r.2.2.sizeHint == (2, some 2) &&
      decide (r.2.1 = [some { coord := (1, 1), color := .black }, some { coord := (1, 2), color := .black }, none, none])) = true :=
  mkBoard_exists (l := [.push 1 1 .black, .push 1 2 .black]) (by decide +kernel)

end Model
