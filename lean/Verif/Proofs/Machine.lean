import Verif.Model.Machine
import Verif.Proofs.Slots
import Verif.Proofs.Bitset
import Verif.Proofs.Eye
import Verif.Proofs.Capture
import Verif.Proofs.Reach
/-!
# Capacities, 32-bit counters and lazy iterators make no difference
-/

namespace Model

variable {dbg : Bool}

/-! ## Partial correctness -/

/-- If the call returns, its value has property `P`. -/
def OkP {α} (x : M α) (P : α → Prop) : Prop := ∀ a, x = .ok a → P a

namespace OkP

theorem ok {α} {a : α} {P : α → Prop} (h : P a) : OkP (.ok a) P := by rintro _ ⟨⟩; exact h
theorem panic {α} {P : α → Prop} : OkP (panic : M α) P := by rintro _ ⟨⟩

theorem bind {α β} {x : M α} {f : α → M β} {P : α → Prop} {Q : β → Prop} (h : OkP x P) (hf : ∀ a, P a → OkP (f a) Q) :
    OkP (x >>= f) Q := by
  intro b e
  obtain ⟨a, e1, e2⟩ := bind_eq_ok e
  exact hf a (h a e1) b e2

theorem triv {α} {x : M α} : OkP x (fun _ => True) := fun _ _ => trivial

theorem fold {α β} {f : β → α → M β} {P : β → Prop} (hf : ∀ b a, P b → OkP (f b a) P) :
    ∀ (l : List α) (b : β), P b → OkP (l.foldlM f b) P
  | [], _, h => .ok h
  | a :: l, b, h => by
    rw [List.foldlM_cons]
    exact (hf b a h).bind (fun b' hb => fold hf l b' hb)

theorem ite {α} {c : Prop} [Decidable c] {x y : M α} {P : α → Prop} (hx : OkP x P) (hy : OkP y P) : OkP (if c then x else y) P := by
  split
  · exact hx
  · exact hy

end OkP

/-- Two calls continued alike. -/
theorem bind_same {α β} {x y : M α} {f g : α → M β} (h : x = y) (hf : ∀ a, y = .ok a → f a = g a) : (x >>= f) = (y >>= g) := by
  subst h
  cases x with
  | error e => rfl
  | ok a => exact hf a rfl

/-! ## Loops that push into a vector -/

theorem fold_cap {α β} {f f' : β → α → M β} {cap : Nat} (sz : β → Nat) (hs : ∀ b a, sz b < cap → f' b a = f b a)
    (hg : ∀ b a b', f b a = .ok b' → sz b' ≤ sz b + 1) : ∀ (l : List α) (b : β), sz b + l.length ≤ cap →
    l.foldlM f' b = l.foldlM f b
  | [], _, _ => rfl
  | a :: l, b, h => by
    rw [List.length_cons] at h
    rw [List.foldlM_cons, List.foldlM_cons]
    refine bind_same (hs b a (by omega)) (fun b' e => fold_cap sz hs hg l b' ?_)
    have := hg b a b' e
    omega

theorem fold_size {α β} {f : β → α → M β} (sz : β → Nat) (hg : ∀ b a b', f b a = .ok b' → sz b' ≤ sz b + 1) :
    ∀ (l : List α) (b b' : β), l.foldlM f b = .ok b' → sz b' ≤ sz b + l.length
  | [], _, _, e => by cases e; exact Nat.le_refl _
  | a :: l, b, b', e => by
    rw [List.foldlM_cons] at e
    obtain ⟨b1, e1, e2⟩ := bind_eq_ok e
    have h1 := hg b a b1 e1
    have h2 := fold_size sz hg l b1 b' e2
    rw [List.length_cons]
    omega

theorem arrayPush_ok {α} {cap : Nat} {l : List α} {x : α} (h : l.length < cap) : arrayPush cap l x = .ok (l ++ [x]) := if_pos h

theorem arrayCollect_ok {α} {cap : Nat} {l : List α} (h : l.length ≤ cap) : arrayCollect cap l = .ok l := by
  have key : ∀ (l acc : List α), acc.length + l.length ≤ cap → l.foldlM (arrayPush cap) acc = .ok (acc ++ l) := by
    intro l
    induction l with
    | nil => intro acc _; rw [List.append_nil]; rfl
    | cons a l ih =>
      intro acc h
      rw [List.length_cons] at h
      rw [List.foldlM_cons, arrayPush_ok (by omega), ok_bind, ih _ (by rw [List.length_append]; simp only [List.length_cons, List.length_nil]; omega)]
      simp
  have := key l [] (by simpa using h)
  rwa [List.nil_append] at this

theorem mapM_size {α β} {f : α → M β} : ∀ {l : List α} {r : List β}, l.mapM f = .ok r → r.length = l.length
  | [], r, e => by cases e; rfl
  | a :: l, r, e => by
    rw [List.mapM_cons] at e
    obtain ⟨x, _, e⟩ := bind_eq_ok e
    obtain ⟨xs, e2, e⟩ := bind_eq_ok e
    cases e
    rw [List.length_cons, List.length_cons, mapM_size e2]

theorem addU32_ok {x y : Nat} (h : x + y < 2 ^ 32) : addU32 dbg x y = .ok (x + y) := if_pos h

/-! ## Neighbours -/

theorem neighborsCoords_length {g : Goban} {c : Coord} {l : List Coord} (e : g.neighborsCoords dbg c = .ok l) : l.length ≤ 4 := by
  unfold Goban.neighborsCoords validCoords at e
  obtain ⟨l', e1, e⟩ := bind_eq_ok e
  unfold neighborCoords at e1
  obtain ⟨d, _, e1⟩ := bind_eq_ok e1
  obtain ⟨r, _, e1⟩ := bind_eq_ok e1
  cases e1
  cases e
  exact List.length_filter_le _ _

theorem neighborsIdx_length {g : Goban} {i : Nat} {l : List Nat} (e : g.neighborsIdx dbg i = .ok l) : l.length ≤ 4 := by
  unfold Goban.neighborsIdx at e
  obtain ⟨c, _, e⟩ := bind_eq_ok e
  obtain ⟨l', e1, e⟩ := bind_eq_ok e
  cases e
  rw [List.length_map]
  exact neighborsCoords_length e1

/-! ## The bitset -/

namespace Bits

theorem iterChunkCap_eq (ix : Nat) : ∀ (fuel : Nat) (chunk : BitVec 8) (index : Nat) (acc : List Nat), acc.length + fuel ≤ 8 →
    iterChunkCap ix fuel chunk index acc = .ok (acc ++ iterChunk ix fuel chunk index)
  | 0, chunk, index, acc, _ => by unfold iterChunkCap iterChunk; rw [List.append_nil]
  | fuel + 1, chunk, index, acc, h => by
    unfold iterChunkCap iterChunk
    split
    · rw [List.append_nil]
    · dsimp only
      rw [arrayPush_ok (by omega), ok_bind, iterChunkCap_eq ix fuel _ _ _ (by rw [List.length_append]; simp only [List.length_cons, List.length_nil]; omega)]
      simp

theorem iterOnesFromCap_eq : ∀ (l : Liberties) (ix : Nat), iterOnesFromCap ix l = .ok (iterOnesFrom ix l)
  | [], _ => rfl
  | c :: cs, ix => by
    unfold iterOnesFromCap iterOnesFrom
    rw [iterChunkCap_eq ix 8 c 0 [] (by decide), ok_bind, iterOnesFromCap_eq cs, ok_bind, List.nil_append]

end Bits

/-! ## Pushing -/

namespace Goban

/-- Number of entries of the three vectors. -/
def Around.total (a : Around) : Nat := a.same.length + a.opp.length + a.libs.length

theorem aroundStepCap_eq {g : Goban} {color : Color} {a : Around} {nb : Nat} (h : a.total < 4) :
    g.aroundStepCap color a nb = g.aroundStep color a nb := by
  unfold Around.total at h
  unfold aroundStepCap aroundStep
  refine bind_same rfl (fun o _ => ?_)
  cases o with
  | none =>
    dsimp only
    rw [arrayPush_ok (by omega), ok_bind]
  | some k =>
    dsimp only
    refine bind_same rfl (fun ch _ => ?_)
    split
    · split
      · rfl
      · rw [arrayPush_ok (by omega), ok_bind]
    · split
      · rfl
      · rw [arrayPush_ok (by omega), ok_bind]

theorem aroundStep_total {g : Goban} {color : Color} {a a' : Around} {nb : Nat} (e : g.aroundStep color a nb = .ok a') :
    a'.total ≤ a.total + 1 := by
  unfold aroundStep at e
  obtain ⟨o, _, e⟩ := bind_eq_ok e
  unfold Around.total
  cases o with
  | none =>
    cases e
    simp only [List.length_append, List.length_cons, List.length_nil]
    omega
  | some k =>
    obtain ⟨ch, _, e⟩ := bind_eq_ok e
    split at e
    · split at e
      · cases e; omega
      · cases e; simp only [List.length_append, List.length_cons, List.length_nil]; omega
    · split at e
      · cases e; omega
      · cases e; simp only [List.length_append, List.length_cons, List.length_nil]; omega

theorem takeLibertyCap_eq {i : Nat} {st : Goban × List Nat} {k : Nat} (h : st.2.length < 4) :
    takeLibertyCap dbg i st k = takeLiberty dbg i st k := by
  unfold takeLibertyCap takeLiberty
  dsimp only
  refine bind_same rfl (fun grp _ => bind_same rfl (fun grp' _ => ?_))
  split
  · rename_i hd
    rw [arrayPush_ok h, ok_bind]
  · rfl

theorem takeLiberty_total {i : Nat} {st st' : Goban × List Nat} {k : Nat} (e : takeLiberty dbg i st k = .ok st') :
    st'.2.length ≤ st.2.length + 1 := by
  unfold takeLiberty at e
  dsimp only at e
  obtain ⟨grp, _, e⟩ := bind_eq_ok e
  obtain ⟨grp', _, e⟩ := bind_eq_ok e
  cases e
  dsimp only
  split
  · rw [List.length_append]; exact Nat.le_refl _
  · omega

theorem pushWthFeedbackCap_eq (g : Goban) (p : Coord) (c : Color) : g.pushWthFeedbackCap dbg p c = g.pushWthFeedback dbg p c := by
  unfold pushWthFeedbackCap pushWthFeedback
  dsimp only
  refine bind_same rfl (fun nbs hn => ?_)
  have h4 := neighborsIdx_length hn
  refine bind_same (fold_cap (cap := 4) Around.total (fun _ _ => aroundStepCap_eq) (fun _ _ _ => aroundStep_total) nbs _ ?_)
    (fun a ha => ?_)
  · simpa [Around.total] using h4
  · have ht := fold_size Around.total (fun _ _ _ => aroundStep_total) nbs _ a ha
    have h0 : Around.total { same := [], opp := [], libs := [] } = 0 := rfl
    rw [h0] at ht
    unfold Around.total at ht
    refine bind_same (fold_cap (cap := 4) (fun st : Goban × List Nat => st.2.length) (fun _ _ => takeLibertyCap_eq)
      (fun _ _ _ => takeLiberty_total) a.opp _ ?_) (fun _ _ => rfl)
    dsimp only
    rw [List.length_nil]
    omega

theorem feedback_dead_length {g : Goban} {p : Coord} {c : Color} {f : Feedback} (e : g.pushWthFeedback dbg p c = .ok f) :
    f.dead.length ≤ 4 := by
  unfold pushWthFeedback at e
  dsimp only at e
  obtain ⟨nbs, hn, e⟩ := bind_eq_ok e
  obtain ⟨a, ha, e⟩ := bind_eq_ok e
  obtain ⟨st, hst, e⟩ := bind_eq_ok e
  obtain ⟨at_, _, e⟩ := bind_eq_ok e
  obtain ⟨z, _, e⟩ := bind_eq_ok e
  have h4 := neighborsIdx_length hn
  have ht := fold_size Around.total (fun _ _ _ => aroundStep_total) nbs _ a ha
  have h0 : Around.total { same := [], opp := [], libs := [] } = 0 := rfl
  rw [h0] at ht
  unfold Around.total at ht
  have hd := fold_size (fun st : Goban × List Nat => st.2.length) (fun _ _ _ => takeLiberty_total) a.opp _ st hst
  dsimp only at hd
  rw [List.length_nil] at hd
  have : f.dead = st.2 := by
    cases dbg with
    | false => cases e; rfl
    | true =>
      obtain ⟨_, _, e⟩ := bind_eq_ok e
      cases e
      rfl
  rw [this]
  omega

/-! ## Neighbouring groups, removal -/

theorem connectedStepCap_eq {g : Goban} {acc : List Nat} {j : Nat} (h : acc.length < 4) : g.connectedStepCap acc j = g.connectedStep acc j := by
  unfold connectedStepCap connectedStep
  refine bind_same rfl (fun o _ => ?_)
  cases o with
  | none => rfl
  | some k =>
    dsimp only
    split
    · rfl
    · rw [arrayPush_ok h]

theorem connectedStep_total {g : Goban} {acc acc' : List Nat} {j : Nat} (e : g.connectedStep acc j = .ok acc') :
    acc'.length ≤ acc.length + 1 := by
  unfold connectedStep at e
  obtain ⟨o, _, e⟩ := bind_eq_ok e
  cases o with
  | none => cases e; omega
  | some k =>
    cases e
    split
    · omega
    · rw [List.length_append]; exact Nat.le_refl _

theorem connectedGroupsIdxCap_eq (g : Goban) (i : Nat) : g.connectedGroupsIdxCap dbg i = g.connectedGroupsIdx dbg i := by
  unfold connectedGroupsIdxCap connectedGroupsIdx
  refine bind_same rfl (fun nbs hn => ?_)
  refine fold_cap (cap := 4) List.length (fun _ _ => connectedStepCap_eq) (fun _ _ _ => connectedStep_total) nbs _ ?_
  rw [List.length_nil]
  have := neighborsIdx_length hn
  omega

theorem connectedGroupsIdx_length {g : Goban} {i : Nat} {l : List Nat} (e : g.connectedGroupsIdx dbg i = .ok l) : l.length ≤ 4 := by
  unfold connectedGroupsIdx at e
  obtain ⟨nbs, hn, e⟩ := bind_eq_ok e
  have h4 := neighborsIdx_length hn
  have := fold_size List.length (fun _ _ _ => connectedStep_total) nbs _ l e
  rw [List.length_nil] at this
  omega

theorem connectedGroupsCap_eq (g : Goban) (c : Coord) : g.connectedGroupsCap dbg c = g.connectedGroups dbg c := by
  unfold connectedGroupsCap connectedGroups
  refine bind_same (connectedGroupsIdxCap_eq g _) (fun ks hk => ?_)
  have h4 := connectedGroupsIdx_length hk
  cases h : ks.mapM (fun k => g.chains.chainAt k) with
  | error e => rfl
  | ok l => rw [ok_bind, arrayCollect_ok (by rw [mapM_size h]; exact h4)]

theorem removeStoneStepCap_eq : removeStoneStepCap dbg = removeStoneStep dbg := by
  funext k c g i
  unfold removeStoneStepCap removeStoneStep
  rw [connectedGroupsIdxCap_eq]

theorem removeChainCap_eq (g : Goban) (k : Nat) : g.removeChainCap dbg k = g.removeChain dbg k := by
  unfold removeChainCap removeChain
  rw [removeStoneStepCap_eq]

/-! ## The stones per group fit their field -/

/-- The field `num_stones` of every group is a `u16`. In Rust this is its type. -/
def Fits16 (g : Goban) : Prop := ∀ grp, some grp ∈ g.chains → grp.numStones < 65536

theorem chainAt_mem {cs : Groups} {k : Nat} {grp : Group} (e : cs.chainAt k = .ok grp) : some grp ∈ cs := by
  unfold Groups.chainAt at e
  split at e
  · rename_i g h
    cases e
    exact List.mem_of_getElem? h
  · cases e

theorem Fits16.of_chains {g g' : Goban} (h : g.Fits16) (e : g'.chains = g.chains) : g'.Fits16 := by
  unfold Fits16
  rw [e]
  exact h

theorem Fits16.setChain {g : Goban} (h : g.Fits16) {k : Nat} {grp : Group} (hg : grp.numStones < 65536) : (g.setChain k grp).Fits16 := by
  intro x hx
  rcases List.mem_or_eq_of_mem_set hx with h1 | h1
  · exact h x h1
  · cases h1; exact hg

theorem Fits16.remove {g : Goban} (h : g.Fits16) {k : Nat} {cs : Groups} (e : g.chains.remove k = .ok cs) :
    Fits16 { g with chains := cs } := by
  unfold Groups.remove at e
  split at e
  · cases e
    intro x hx
    rcases List.mem_or_eq_of_mem_set hx with h1 | h1
    · exact h x h1
    · cases h1
  · cases e

theorem removeLiberty_num {grp grp' : Group} {i : Nat} (e : grp.removeLiberty dbg i = .ok grp') : grp'.numStones = grp.numStones := by
  unfold Group.removeLiberty at e
  cases dbg with
  | false => obtain ⟨l, _, e⟩ := bind_eq_ok e; cases e; rfl
  | true =>
    obtain ⟨_, _, e⟩ := bind_eq_ok e
    obtain ⟨_, _, e⟩ := bind_eq_ok e
    obtain ⟨l, _, e⟩ := bind_eq_ok e
    cases e
    rfl

theorem addLibertyUnchecked_num {grp grp' : Group} {i : Nat} (e : grp.addLibertyUnchecked i = .ok grp') :
    grp'.numStones = grp.numStones := by
  unfold Group.addLibertyUnchecked at e
  obtain ⟨l, _, e⟩ := bind_eq_ok e
  cases e
  rfl

theorem addLiberty_num {grp grp' : Group} {i : Nat} (e : grp.addLiberty dbg i = .ok grp') : grp'.numStones = grp.numStones := by
  unfold Group.addLiberty at e
  cases dbg with
  | false => exact addLibertyUnchecked_num e
  | true =>
    obtain ⟨_, _, e⟩ := bind_eq_ok e
    obtain ⟨_, _, e⟩ := bind_eq_ok e
    exact addLibertyUnchecked_num e

theorem unionLibertiesSlice_num {grp grp' : Group} {l : List Nat} (e : grp.unionLibertiesSlice l = .ok grp') :
    grp'.numStones = grp.numStones := by
  refine OkP.fold (P := fun x => x.numStones = grp.numStones) (fun b a hb b' e => ?_) l grp rfl grp' e
  show b'.numStones = grp.numStones
  rw [addLibertyUnchecked_num e, hb]

theorem addU16_lt {x y : Nat} : OkP (addU16 dbg x y) (· < 65536) := by
  unfold addU16
  split
  · rename_i h; exact .ok h
  · split
    · exact .panic
    · exact .ok (Nat.mod_lt _ (by decide))

theorem fits16_update {g : Goban} {k : Nat} (h : g.Fits16) : OkP (g.updateChainIndexesInBoard dbg k) Fits16 := by
  unfold updateChainIndexesInBoard
  refine OkP.triv.bind (fun ch _ => OkP.triv.bind (fun pts _ => OkP.triv.bind (fun _ _ => ?_)))
  refine OkP.fold (fun b a hb => ?_) pts g h
  refine OkP.ite .panic (fun b' e => hb.of_chains (setBoard_chains e))

theorem fits16_create {g : Goban} {i : Nat} {c : Color} {l : List Nat} (h : g.Fits16) :
    OkP (g.createChain dbg i c l) (fun r => r.2.Fits16) := by
  unfold createChain
  dsimp only
  refine OkP.triv.bind (fun lib _ => OkP.bind (P := Fits16) (fun g' e => h.of_chains (setNext_chains e)) (fun g' hg => ?_))
  refine OkP.bind (fits16_update ?_) (fun g'' h2 => .ok h2)
  intro x hx
  rcases List.mem_append.1 hx with h1 | h1
  · exact hg x h1
  · rw [List.mem_singleton] at h1
    cases h1
    show 1 < 65536
    decide

theorem fits16_addStone {g : Goban} {k i : Nat} (h : g.Fits16) : OkP (g.addStoneToChain dbg k i) Fits16 := by
  intro r e
  unfold addStoneToChain at e
  obtain ⟨grp, _, e⟩ := bind_eq_ok e
  dsimp only at e
  split at e
  · obtain ⟨g1, e1, e⟩ := bind_eq_ok e
    obtain ⟨g2, e2, e⟩ := bind_eq_ok e
    have h2 : g2.Fits16 := (h.of_chains (setNext_chains e1)).of_chains (setNext_chains e2)
    simp only [pure_bind] at e
    obtain ⟨n, hn, e⟩ := bind_eq_ok e
    cases dbg with
    | false => cases e; exact Fits16.setChain h2 (addU16_lt n hn)
    | true =>
      obtain ⟨l, _, e⟩ := bind_eq_ok e
      obtain ⟨_, _, e⟩ := bind_eq_ok e
      cases e
      exact Fits16.setChain h2 (addU16_lt n hn)
  · obtain ⟨g1, e1, e⟩ := bind_eq_ok e
    obtain ⟨g2, e2, e⟩ := bind_eq_ok e
    have h2 : g2.Fits16 := (h.of_chains (setNext_chains e1)).of_chains (setNext_chains e2)
    simp only [pure_bind] at e
    obtain ⟨n, hn, e⟩ := bind_eq_ok e
    cases dbg with
    | false => cases e; exact Fits16.setChain h2 (addU16_lt n hn)
    | true =>
      obtain ⟨l, _, e⟩ := bind_eq_ok e
      obtain ⟨_, _, e⟩ := bind_eq_ok e
      cases e
      exact Fits16.setChain h2 (addU16_lt n hn)

theorem fits16_merge {g : Goban} {a b : Nat} (h : g.Fits16) : OkP (g.mergeStrings dbg a b) Fits16 := by
  unfold mergeStrings
  dsimp only
  refine OkP.triv.bind (fun c1 _ => OkP.triv.bind (fun c2 _ => OkP.triv.bind (fun _ _ => OkP.triv.bind (fun _ _ => ?_))))
  refine OkP.bind (P := Fits16) (fun g' e => ?_) (fun g' hg => addU16_lt.bind (fun n hn => ?_))
  · unfold swapNext at e
    split at e
    · cases e; exact h
    · cases e
  · refine OkP.bind (fits16_update (Fits16.setChain hg hn)) (fun g2 h2 => ?_)
    intro x e
    obtain ⟨cs, e1, e⟩ := bind_eq_ok e
    cases e
    exact h2.remove e1

theorem fits16_attach {g : Goban} {i : Nat} {c : Color} {same libs : List Nat} (h : g.Fits16) :
    OkP (g.attach dbg i c same libs) (fun r => r.2.Fits16) := by
  unfold attach
  split
  · exact fits16_create h
  · intro r e
    obtain ⟨ch, e1, e⟩ := bind_eq_ok e
    obtain ⟨ch1, e2, e⟩ := bind_eq_ok e
    obtain ⟨ch2, e3, e⟩ := bind_eq_ok e
    dsimp only at e
    obtain ⟨g1, e4, e⟩ := bind_eq_ok e
    have h1 : ch2.numStones < 65536 := by
      rw [unionLibertiesSlice_num e3, removeLiberty_num e2]
      exact h _ (chainAt_mem e1)
    have h2 := fits16_addStone (h.setChain h1) g1 e4
    split at e
    · cases e
    · obtain ⟨g2, e5, e⟩ := bind_eq_ok e
      cases e
      exact h2.of_chains (setBoard_chains e5)
  · refine OkP.bind (fits16_create h) (fun r hr => ?_)
    obtain ⟨k, g1⟩ := r
    dsimp only
    refine OkP.bind (P := fun st : Goban × Nat => st.1.Fits16) (OkP.fold (fun st a hst => ?_) same (g1, k) hr) (fun st hst => ?_)
    · unfold mergeStep
      dsimp only
      refine OkP.triv.bind (fun _ _ => OkP.triv.bind (fun _ _ => OkP.ite ?_ ?_))
      · exact (fits16_merge hst).bind (fun _ h => .ok h)
      · exact (fits16_merge hst).bind (fun _ h => .ok h)
    · obtain ⟨g2, k2⟩ := st
      dsimp only at hst ⊢
      intro r e
      obtain ⟨ch, e1, e⟩ := bind_eq_ok e
      obtain ⟨ch1, e2, e⟩ := bind_eq_ok e
      cases e
      refine Fits16.setChain hst ?_
      rw [removeLiberty_num e2]
      exact hst _ (chainAt_mem e1)

theorem fits16_push {g : Goban} {p : Coord} {c : Color} (h : g.Fits16) : OkP (g.pushWthFeedback dbg p c) (fun f => f.goban.Fits16) := by
  unfold pushWthFeedback
  dsimp only
  refine OkP.triv.bind (fun nbs _ => OkP.triv.bind (fun a _ => ?_))
  refine OkP.bind (P := fun st : Goban × List Nat => st.1.Fits16) (OkP.fold (fun st k hst => ?_) a.opp (g, []) h) (fun st hst => ?_)
  · unfold takeLiberty
    intro r e
    dsimp only at e
    obtain ⟨grp, e1, e⟩ := bind_eq_ok e
    obtain ⟨grp', e2, e⟩ := bind_eq_ok e
    cases e
    refine Fits16.setChain hst ?_
    rw [removeLiberty_num e2]
    exact hst _ (chainAt_mem e1)
  · refine OkP.bind (fits16_attach hst) (fun r hr => OkP.triv.bind (fun z _ => ?_))
    have hf : Fits16 { r.2 with zobristHash := r.2.zobristHash ^^^ z } := hr.of_chains rfl
    cases dbg with
    | false => exact .ok hf
    | true => exact OkP.triv.bind (fun _ _ => .ok hf)

theorem fits16_removeChain {g : Goban} {k : Nat} (h : g.Fits16) : OkP (g.removeChain dbg k) Fits16 := by
  unfold removeChain
  refine OkP.triv.bind (fun ch _ => ?_)
  refine OkP.bind (P := Fits16) (fun g' e => ?_) (fun g' hg => ?_)
  on_goal 1 =>
    obtain ⟨pts, _, e⟩ := Group.iterFold_ok e
    refine OkP.fold (P := Fits16) (fun g i hg => ?_) pts g h g' e
  · unfold removeStoneStep
    dsimp only
    refine OkP.triv.bind (fun ns _ => ?_)
    refine OkP.bind (P := Fits16) (OkP.fold (fun g n hg => ?_) _ g hg) (fun g hg => OkP.triv.bind (fun z _ => ?_))
    · intro r e
      obtain ⟨c1, e1, e⟩ := bind_eq_ok e
      obtain ⟨c2, e2, e⟩ := bind_eq_ok e
      cases e
      refine Fits16.setChain hg ?_
      rw [addLiberty_num e2]
      exact hg _ (chainAt_mem e1)
    · intro r e
      have hx : Fits16 { g with zobristHash := g.zobristHash ^^^ z } := hg.of_chains rfl
      exact hx.of_chains (setBoard_chains e)
  · intro r e
    obtain ⟨cs, e1, e⟩ := bind_eq_ok e
    cases e
    exact hg.remove e1

/-! ## Counting captures -/

theorem addRemoved32_eq {r : Nat × Nat} {c : Color} {n : Nat} (h : r.1 + r.2 + n < 2 ^ 32) :
    addRemoved32 dbg r c n = .ok (addRemoved r c n) := by
  cases c with
  | black => unfold addRemoved32 addRemoved; dsimp only; rw [addU32_ok (by omega), ok_bind]
  | white => unfold addRemoved32 addRemoved; dsimp only; rw [addU32_ok (by omega), ok_bind]

theorem addRemoved_sum {r : Nat × Nat} {c : Color} {n : Nat} : (addRemoved r c n).1 + (addRemoved r c n).2 = r.1 + r.2 + n := by
  cases c <;> simp only [addRemoved] <;> omega

theorem captureStep_size {o : Bool} {s s' : Captures} {k : Nat} (hs : s.goban.Fits16) (e : captureStep dbg o s k = .ok s') :
    s'.goban.Fits16 ∧ s'.removed.1 + s'.removed.2 ≤ s.removed.1 + s.removed.2 + 65535 := by
  unfold captureStep at e
  obtain ⟨ch, e1, e⟩ := bind_eq_ok e
  dsimp only at e
  have key : ∀ ko, (removeChain dbg s.goban k >>= fun g =>
      Except.ok { removed := addRemoved s.removed ch.color ch.numStones, ko := ko, goban := g }) = Except.ok s' →
      s'.goban.Fits16 ∧ s'.removed.1 + s'.removed.2 ≤ s.removed.1 + s.removed.2 + 65535 := by
    intro ko e
    obtain ⟨g, e2, e⟩ := bind_eq_ok e
    cases e
    refine ⟨fits16_removeChain hs g e2, ?_⟩
    dsimp only
    rw [addRemoved_sum]
    have := hs _ (chainAt_mem e1)
    omega
  split at e
  · obtain ⟨ko, _, e⟩ := bind_eq_ok e
    exact key ko e
  · exact key _ e

theorem captureStep32_eq {o : Bool} {s : Captures} {k : Nat} (hs : s.goban.Fits16) (h : s.removed.1 + s.removed.2 ≤ 4 * 65535) :
    captureStep32 dbg o s k = captureStep dbg o s k := by
  unfold captureStep32 captureStep
  refine bind_same rfl (fun ch e1 => ?_)
  have := hs _ (chainAt_mem e1)
  rw [addRemoved32_eq (by omega), removeChainCap_eq]
  simp only [ok_bind]

theorem captures_fold {o : Bool} : ∀ (l : List Nat) (s : Captures), s.goban.Fits16 →
    s.removed.1 + s.removed.2 + 65535 * l.length ≤ 4 * 65535 → l.foldlM (captureStep32 dbg o) s = l.foldlM (captureStep dbg o) s
  | [], _, _, _ => rfl
  | k :: l, s, hs, h => by
    rw [List.length_cons] at h
    rw [List.foldlM_cons, List.foldlM_cons]
    refine bind_same (captureStep32_eq hs (by omega)) (fun s' e => ?_)
    obtain ⟨h1, h2⟩ := captureStep_size hs e
    exact captures_fold l s' h1 (by omega)

theorem captures_size {o : Bool} : ∀ (l : List Nat) (s s' : Captures), s.goban.Fits16 → l.foldlM (captureStep dbg o) s = .ok s' →
    s'.goban.Fits16 ∧ s'.removed.1 + s'.removed.2 ≤ s.removed.1 + s.removed.2 + 65535 * l.length
  | [], _, _, hs, e => by cases e; exact ⟨hs, by omega⟩
  | k :: l, s, s', hs, e => by
    rw [List.foldlM_cons] at e
    obtain ⟨s1, e1, e2⟩ := bind_eq_ok e
    obtain ⟨h1, h2⟩ := captureStep_size hs e1
    obtain ⟨h3, h4⟩ := captures_size l s1 s' h1 e2
    refine ⟨h3, ?_⟩
    rw [List.length_cons]
    omega

theorem removeCaptured32_eq {g : Goban} (h : g.Fits16) {b : Bool} {dead : List Nat} (hd : dead.length ≤ 4) {added : Nat} :
    g.removeCapturedStonesAux32 dbg b dead added = g.removeCapturedStonesAux dbg b dead added := by
  unfold removeCapturedStonesAux32 removeCapturedStonesAux
  dsimp only
  have h0 : ({ removed := (0, 0), ko := none, goban := g } : Captures).removed.1 +
    ({ removed := (0, 0), ko := none, goban := g } : Captures).removed.2 = 0 := rfl
  refine bind_same (captures_fold dead _ h (by rw [h0]; omega)) (fun s e => bind_same rfl (fun ch e1 => ?_))
  obtain ⟨h1, h2⟩ := captures_size dead _ s h e
  rw [h0] at h2
  have := h1 _ (chainAt_mem e1)
  split
  · rw [addRemoved32_eq (by omega), ok_bind, removeChainCap_eq]
  · rfl

/-! ## Listing by colour -/

theorem fold_push {β} {cap : Nat} {h : Nat → M (Option β)} {step : List β → Nat → M (List β)}
    (hs : ∀ acc i, step acc i = h i >>= fun o => match o with | none => .ok acc | some p => arrayPush cap acc p) :
    ∀ (l : List Nat) (acc : List β), acc.length + l.length ≤ cap →
      l.foldlM step acc = l.mapM h >>= fun os => .ok (acc ++ os.filterMap id)
  | [], acc, _ => by simp [pure, Except.pure, bind, Except.bind]
  | i :: l, acc, hl => by
    rw [List.length_cons] at hl
    rw [List.foldlM_cons, List.mapM_cons, hs]
    cases hi : h i with
    | error e => rfl
    | ok o =>
      rw [ok_bind, ok_bind]
      cases o with
      | none =>
        dsimp only
        rw [ok_bind, fold_push hs l acc (by omega)]
        cases l.mapM h with
        | error e => rfl
        | ok os => rfl
      | some p =>
        dsimp only
        rw [arrayPush_ok (by omega), ok_bind, fold_push hs l _ (by rw [List.length_append]; simp only [List.length_cons, List.length_nil]; omega)]
        cases l.mapM h with
        | error e => rfl
        | ok os => simp [pure, Except.pure, bind, Except.bind]

theorem mulU8_lt {x y : Nat} : OkP (mulU8 dbg x y) (· < 256) := by
  unfold mulU8
  split
  · rename_i h; exact .ok h
  · split
    · exact .panic
    · exact .ok (Nat.mod_lt _ (by decide))

theorem getCoordsByColorCap_eq (g : Goban) (c : MaybeColor) : g.getCoordsByColorCap dbg c = g.getCoordsByColor dbg c := by
  unfold getCoordsByColorCap getCoordsByColor
  refine bind_same rfl (fun bound hb => ?_)
  have hb := mulU8_lt bound hb
  rw [fold_push (cap := BOARD_MAX_LENGTH) (h := fun i => match c with
    | none => do let c ← oneTo2dim g.size i; .ok (some c)
    | some c => do
      match ← g.boardAt i with
      | none => .ok none
      | some k =>
        let ch ← g.chains.chainAt k
        if ch.color = c then do let p ← oneTo2dim g.size i; .ok (some p) else .ok none)]
  · cases c <;> rfl
  · intro acc i
    unfold coordsStepCap
    cases c with
    | none => dsimp only; cases oneTo2dim g.size i <;> rfl
    | some c =>
      dsimp only
      cases g.boardAt i with
      | error e => rfl
      | ok o =>
        rw [ok_bind, ok_bind]
        cases o with
        | none => rfl
        | some k =>
          dsimp only
          cases g.chains.chainAt k with
          | error e => rfl
          | ok ch =>
            rw [ok_bind, ok_bind]
            split
            · cases oneTo2dim g.size i <;> rfl
            · rfl
  · rw [List.length_nil, List.length_range]
    have : BOARD_MAX_LENGTH = 361 := by decide
    omega

end Goban

theorem Inv.fits16 {n : Dim} {g : Goban} (h : Inv n g) : g.Fits16 := by
  intro grp hm
  obtain ⟨k, hk⟩ := List.getElem?_of_mem hm
  have hk' : g.ch k = some grp := by unfold Goban.ch; rw [hk]; rfl
  rw [h.rep.numStones hk']
  have := List.countP_le_length (p := fun i => decide (g.bd i = some k)) (l := List.range 361)
  rw [List.length_range] at this
  omega

/-! ## Games -/

namespace Game

variable {g : Game}

/-- Number of corners kept. -/
def eyeTotal (a : List Coord × List Coord × List Coord) : Nat := a.1.length + a.2.1.length + a.2.2.length

theorem eyeStepCap_eq {c : Color} {a : List Coord × List Coord × List Coord} {p : Coord} (h : eyeTotal a < 4) :
    g.eyeStepCap c a p = g.eyeStep c a p := by
  unfold eyeTotal at h
  unfold eyeStepCap eyeStep
  split
  · refine bind_same rfl (fun o _ => ?_)
    cases o with
    | none => dsimp only; rw [arrayPush_ok (by omega), ok_bind]
    | some d =>
      dsimp only
      split
      · rw [arrayPush_ok (by omega), ok_bind]
      · rfl
  · rw [arrayPush_ok (by omega), ok_bind]

theorem eyeStep_total {c : Color} {a a' : List Coord × List Coord × List Coord} {p : Coord} (e : g.eyeStep c a p = .ok a') :
    eyeTotal a' ≤ eyeTotal a + 1 := by
  unfold eyeStep at e
  unfold eyeTotal
  split at e
  · obtain ⟨o, _, e⟩ := bind_eq_ok e
    cases o with
    | none => cases e; simp only [List.length_append, List.length_cons, List.length_nil]; omega
    | some d =>
      dsimp only at e
      split at e
      · cases e; simp only [List.length_append, List.length_cons, List.length_nil]; omega
      · cases e; omega
  · cases e; simp only [List.length_append, List.length_cons, List.length_nil]; omega

theorem helperCheckEyeCap_eq (p : Coord) (c : Color) : g.helperCheckEyeCap dbg p c = g.helperCheckEye dbg p c := by
  unfold helperCheckEyeCap helperCheckEye
  refine bind_same rfl (fun ps hp => ?_)
  refine fold_cap (cap := 4) eyeTotal (fun _ _ => eyeStepCap_eq) (fun _ _ _ => eyeStep_total) ps _ ?_
  unfold cornerPoints at hp
  obtain ⟨d, _, hp⟩ := bind_eq_ok hp
  obtain ⟨r, _, hp⟩ := bind_eq_ok hp
  cases hp
  exact Nat.le_refl 4

theorem eyeCornersCap_eq (c : Color) : ∀ l, g.eyeCornersCap dbg c l = g.eyeCorners dbg c l
  | [] => rfl
  | p :: l => by
    unfold eyeCornersCap eyeCorners
    rw [helperCheckEyeCap_eq, eyeCornersCap_eq c l]

theorem checkEyeCap_eq (s : Stone) : g.checkEyeCap dbg s = g.checkEye dbg s := by
  unfold checkEyeCap checkEye
  rw [helperCheckEyeCap_eq]
  simp only [eyeCornersCap_eq]

theorem checkSuicideCap_eq (s : Stone) : g.checkSuicideCap dbg s = g.checkSuicide dbg s := by
  unfold checkSuicideCap checkSuicide
  rw [Goban.connectedGroupsCap_eq]

theorem checkKoCap_eq (s : Stone) : g.checkKoCap dbg s = g.checkKo dbg s := by
  unfold checkKoCap checkKo
  rw [Goban.connectedGroupsCap_eq]

theorem willCaptureCap_eq (c : Coord) : g.willCaptureCap dbg c = g.willCapture dbg c := by
  unfold willCaptureCap willCapture
  rw [Goban.connectedGroupsCap_eq]

theorem playForVerification32_eq (hf : g.goban.Fits16) (c : Coord) : g.playForVerification32 dbg c = g.playForVerification dbg c := by
  unfold playForVerification32 playForVerification
  refine bind_same (Goban.pushWthFeedbackCap_eq _ _ _) (fun f e => ?_)
  rw [Goban.removeCaptured32_eq (Goban.fits16_push hf f e) (Goban.feedback_dead_length e)]

theorem checkSuperKo32_eq (hf : g.goban.Fits16) (s : Stone) : g.checkSuperKo32 dbg s = g.checkSuperKo dbg s := by
  unfold checkSuperKo32 checkSuperKo
  rw [willCaptureCap_eq, playForVerification32_eq hf, checkKoCap_eq]

theorem checkPointBy32_eq (hf : g.goban.Fits16) (c : Coord) (r : IllegalRules) :
    g.checkPointBy32 dbg c r = g.checkPointBy dbg c r := by
  unfold checkPointBy32 checkPointBy
  dsimp only
  rw [checkSuicideCap_eq, checkKoCap_eq, checkEyeCap_eq, checkSuperKo32_eq hf]

theorem removeCaptured_size {f : Goban} (hf : f.Fits16) {b : Bool} {dead : List Nat} (hd : dead.length ≤ 4) {added : Nat}
    {s : Goban.Captures} (e : f.removeCapturedStonesAux dbg b dead added = .ok s) : s.removed.1 + s.removed.2 ≤ 5 * 65535 := by
  unfold Goban.removeCapturedStonesAux at e
  dsimp only at e
  obtain ⟨s1, e1, e⟩ := bind_eq_ok e
  obtain ⟨ch, e2, e⟩ := bind_eq_ok e
  obtain ⟨h1, h2⟩ := Goban.captures_size dead _ s1 hf e1
  dsimp only at h2
  have := h1 _ (Goban.chainAt_mem e2)
  split at e
  · obtain ⟨g', _, e⟩ := bind_eq_ok e
    cases e
    dsimp only
    rw [Goban.addRemoved_sum]
    omega
  · cases e
    omega

theorem play32_eq (hf : g.goban.Fits16) (hp : g.prisoners.1 + g.prisoners.2 < 2 ^ 31) (mv : Move) : g.play32 dbg mv = g.play dbg mv := by
  cases mv with
  | resign c => rfl
  | pass =>
    unfold play32 play
    refine bind_same rfl (fun _ h => ?_)
    have : g.passes < 2 := by
      unfold assertM at h
      split at h
      · rename_i h'; exact of_decide_eq_true h'
      · cases h
    rw [addU32_ok (by omega), ok_bind]
  | play x y =>
    unfold play32 play
    refine bind_same rfl (fun l _ => bind_same (Goban.pushWthFeedbackCap_eq _ _ _) (fun f e => ?_))
    dsimp only
    refine bind_same ?_ (fun _ _ => rfl)
    unfold removeCapturedStones32 removeCapturedStones
    have h16 := Goban.fits16_push hf f e
    have hd := Goban.feedback_dead_length e
    refine bind_same (Goban.removeCaptured32_eq h16 hd) (fun s es => ?_)
    have := removeCaptured_size h16 hd es
    dsimp only
    rw [addU32_ok (by omega), ok_bind, addU32_ok (by omega), ok_bind]

theorem tryPlay32_eq (hf : g.goban.Fits16) (hp : g.prisoners.1 + g.prisoners.2 < 2 ^ 31) (mv : Move) :
    g.tryPlay32 dbg mv = g.tryPlay dbg mv := by
  unfold tryPlay32 tryPlay
  cases mv with
  | play x y =>
    dsimp only
    simp only [checkPointBy32_eq hf, play32_eq hf hp]
    rfl
  | pass => dsimp only; rw [play32_eq hf hp]
  | resign c => dsimp only; rw [play32_eq hf hp]

end Game
end Model
