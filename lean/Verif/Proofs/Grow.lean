import Verif.Proofs.Lazy
import Verif.Proofs.Refine
/-!
# How the group table grows

Nothing in the crate ever reuses a slot of the group table: a call leaves the length of the table alone or makes it longer, and
a stone without a neighbour of its own colour always takes a new slot.
-/

namespace Model
open Spec (OnBoard Adj)

variable {dbg : Bool} {n : Dim} {m : Nat}

theorem foldlM_keep {α β} {f : β → α → M β} {μ : β → Nat} (h : ∀ b a b', f b a = .ok b' → μ b' = μ b) :
    ∀ {l : List α} {b b' : β}, l.foldlM f b = .ok b' → μ b' = μ b
  | [], b, b', e => by cases e; rfl
  | a :: l, b, b', e => by
    rw [List.foldlM_cons] at e
    obtain ⟨b1, e1, e⟩ := bind_eq_ok e
    rw [foldlM_keep h e, h _ _ _ e1]

theorem setBoard_clen {b b' : Goban} {i : Nat} {o : Option Nat} (e : b.setBoard i o = .ok b') :
    b'.chains.length = b.chains.length := by
  unfold Goban.setBoard at e
  split at e
  · cases e; rfl
  · cases e

theorem setNext_clen {b b' : Goban} {i v : Nat} (e : b.setNext i v = .ok b') : b'.chains.length = b.chains.length := by
  unfold Goban.setNext at e
  split at e
  · cases e; rfl
  · cases e

theorem setChain_clen (b : Goban) (k : Nat) (grp : Group) : (b.setChain k grp).chains.length = b.chains.length := by
  unfold Goban.setChain; simp

theorem remove_clen {cs cs' : Groups} {k : Nat} (e : Groups.remove cs k = .ok cs') : cs'.length = cs.length := by
  unfold Groups.remove at e
  split at e
  · cases e; simp
  · cases e

theorem update_clen {b b' : Goban} {k : Nat} (e : b.updateChainIndexesInBoard dbg k = .ok b') :
    b'.chains.length = b.chains.length := by
  unfold Goban.updateChainIndexesInBoard at e
  obtain ⟨_, _, e⟩ := bind_eq_ok e
  obtain ⟨_, _, e⟩ := bind_eq_ok e
  obtain ⟨_, _, e⟩ := bind_eq_ok e
  refine foldlM_keep (μ := fun b : Goban => b.chains.length) ?_ e
  intro b a b' e
  split at e
  · cases e
  · exact setBoard_clen e

theorem createChain_clen {b : Goban} {i : Nat} {c : Color} {l : List Nat} {r : Nat × Goban} (e : b.createChain dbg i c l = .ok r) :
    r.2.chains.length = b.chains.length + 1 := by
  unfold Goban.createChain at e
  obtain ⟨lib, _, e⟩ := bind_eq_ok e
  obtain ⟨b1, e1, e⟩ := bind_eq_ok e
  unfold Groups.putFreeSpot at e
  dsimp only at e
  obtain ⟨b2, e2, e⟩ := bind_eq_ok e
  cases e
  dsimp only
  rw [update_clen e2]
  dsimp only
  rw [List.length_append, setNext_clen e1]
  rfl

theorem addStoneToChain_clen {b r : Goban} {k i : Nat} (e : b.addStoneToChain dbg k i = .ok r) :
    r.chains.length = b.chains.length := by
  unfold Goban.addStoneToChain at e
  obtain ⟨grp, _, e⟩ := bind_eq_ok e
  have fin : ∀ {b1 : Goban} {g1 : Group}, b1.chains.length = b.chains.length → (do
      let n ← addU16 dbg g1.numStones 1
      let grp := { g1 with numStones := n }
      let g := b1.setChain k grp
      if dbg then
        let l ← grp.iter dbg g.nextStone
        debugAssert dbg (l.getLast?.map u16 == some grp.last)
      .ok g : M Goban) = .ok r → r.chains.length = b.chains.length := by
    intro b1 g1 hb e
    obtain ⟨nn, _, e⟩ := bind_eq_ok e
    dsimp only at e
    cases dbg
    · cases e; rw [setChain_clen, hb]
    · obtain ⟨_, _, e⟩ := bind_eq_ok e
      obtain ⟨_, _, e⟩ := bind_eq_ok e
      cases e; rw [setChain_clen, hb]
  dsimp only at e
  split at e
  · obtain ⟨b1, e1, e⟩ := bind_eq_ok e
    obtain ⟨b2, e2, e⟩ := bind_eq_ok e
    exact fin (by rw [setNext_clen e2, setNext_clen e1]) e
  · obtain ⟨b1, e1, e⟩ := bind_eq_ok e
    obtain ⟨b2, e2, e⟩ := bind_eq_ok e
    exact fin (by rw [setNext_clen e2, setNext_clen e1]) e

theorem swapNext_clen {b b' : Goban} {i j : Nat} (e : b.swapNext i j = .ok b') : b'.chains.length = b.chains.length := by
  unfold Goban.swapNext at e
  split at e
  · cases e; rfl
  · cases e

theorem mergeStrings_clen {b b' : Goban} {k j : Nat} (e : b.mergeStrings dbg k j = .ok b') :
    b'.chains.length = b.chains.length := by
  unfold Goban.mergeStrings at e
  obtain ⟨c1, _, e⟩ := bind_eq_ok e
  obtain ⟨c2, _, e⟩ := bind_eq_ok e
  obtain ⟨_, _, e⟩ := bind_eq_ok e
  obtain ⟨_, _, e⟩ := bind_eq_ok e
  dsimp only at e
  obtain ⟨b1, e1, e⟩ := bind_eq_ok e
  obtain ⟨_, _, e⟩ := bind_eq_ok e
  obtain ⟨b2, e2, e⟩ := bind_eq_ok e
  obtain ⟨cs, e3, e⟩ := bind_eq_ok e
  cases e
  dsimp only
  rw [remove_clen e3, update_clen e2, setChain_clen, swapNext_clen e1]

/-- The length of the table after attaching a stone: one more, unless there is exactly one own group around. -/
theorem attach_clen {b : Goban} {i : Nat} {c : Color} {same libs : List Nat} {r : Nat × Goban}
    (e : b.attach dbg i c same libs = .ok r) :
    r.2.chains.length = b.chains.length + if same.length = 1 then 0 else 1 := by
  unfold Goban.attach at e
  split at e
  · rw [createChain_clen e]; rfl
  · obtain ⟨_, _, e⟩ := bind_eq_ok e
    obtain ⟨_, _, e⟩ := bind_eq_ok e
    obtain ⟨_, _, e⟩ := bind_eq_ok e
    obtain ⟨b1, e1, e⟩ := bind_eq_ok e
    split at e
    · cases e
    · obtain ⟨b2, e2, e⟩ := bind_eq_ok e
      cases e
      dsimp only
      rw [setBoard_clen e2, addStoneToChain_clen e1, setChain_clen]
      rfl
  · rename_i h1 h2
    obtain ⟨⟨t, b1⟩, e1, e⟩ := bind_eq_ok e
    obtain ⟨⟨b2, t2⟩, e2, e⟩ := bind_eq_ok e
    obtain ⟨_, _, e⟩ := bind_eq_ok e
    obtain ⟨_, _, e⟩ := bind_eq_ok e
    cases e
    dsimp only
    have h3 := foldlM_keep (μ := fun st : Goban × Nat => st.1.chains.length) (f := Goban.mergeStep dbg) (by
      intro st a st' e
      unfold Goban.mergeStep at e
      obtain ⟨_, _, e⟩ := bind_eq_ok e
      obtain ⟨_, _, e⟩ := bind_eq_ok e
      split at e
      · obtain ⟨_, e3, e⟩ := bind_eq_ok e
        cases e; exact mergeStrings_clen e3
      · obtain ⟨_, e3, e⟩ := bind_eq_ok e
        cases e; exact mergeStrings_clen e3) e2
    dsimp only at h3
    have h4 := createChain_clen e1
    dsimp only at h4
    rw [setChain_clen, h3, h4, if_neg]
    intro hl
    obtain ⟨a, rfl⟩ := List.length_eq_one_iff.1 hl
    exact h2 a rfl

theorem takeLiberty_clen {i : Nat} {l : List Nat} {st r : Goban × List Nat} (e : l.foldlM (Goban.takeLiberty dbg i) st = .ok r) :
    r.1.chains.length = st.1.chains.length := by
  refine foldlM_keep (μ := fun st : Goban × List Nat => st.1.chains.length) ?_ e
  intro st a st' e
  unfold Goban.takeLiberty at e
  obtain ⟨_, _, e⟩ := bind_eq_ok e
  obtain ⟨_, _, e⟩ := bind_eq_ok e
  cases e
  exact setChain_clen _ _ _

/-- The length of the table after a push, whatever the board. -/
theorem pushWthFeedback_clen {b : Goban} {p : Coord} {c : Color} {f : Goban.Feedback} (e : b.pushWthFeedback dbg p c = .ok f) :
    ∃ nbs a, b.neighborsIdx dbg (twoTo1dim b.size p) = .ok nbs ∧
      nbs.foldlM (b.aroundStep c) { same := [], opp := [], libs := [] } = .ok a ∧
      f.goban.chains.length = b.chains.length + if a.same.length = 1 then 0 else 1 := by
  unfold Goban.pushWthFeedback at e
  obtain ⟨nbs, e0, e⟩ := bind_eq_ok e
  obtain ⟨a, ea, e⟩ := bind_eq_ok e
  obtain ⟨⟨b1, dead⟩, e1, e⟩ := bind_eq_ok e
  obtain ⟨⟨k, b2⟩, e2, e⟩ := bind_eq_ok e
  refine ⟨nbs, a, e0, ea, ?_⟩
  have h1 := takeLiberty_clen e1
  have h2 := attach_clen e2
  dsimp only at h1 h2
  obtain ⟨z, _, e⟩ := bind_eq_ok e
  dsimp only at e
  have : f.goban.chains = b2.chains := by
    cases dbg
    · cases e; rfl
    · obtain ⟨_, _, e⟩ := bind_eq_ok e
      cases e; rfl
  rw [this, h2, h1]

theorem removeChain_clen {b b' : Goban} {k : Nat} (e : b.removeChain dbg k = .ok b') : b'.chains.length = b.chains.length := by
  unfold Goban.removeChain at e
  obtain ⟨ch, _, e⟩ := bind_eq_ok e
  obtain ⟨b1, e1, e⟩ := bind_eq_ok e
  obtain ⟨pts, _, e1⟩ := Group.iterFold_ok e1
  obtain ⟨cs, e2, e⟩ := bind_eq_ok e
  cases e
  dsimp only
  rw [remove_clen e2]
  refine foldlM_keep (μ := fun b : Goban => b.chains.length) ?_ e1
  intro b a b' e
  unfold Goban.removeStoneStep at e
  obtain ⟨ns, _, e⟩ := bind_eq_ok e
  dsimp only at e
  obtain ⟨b2, e2, e⟩ := bind_eq_ok e
  obtain ⟨z, _, e⟩ := bind_eq_ok e
  rw [setBoard_clen e]
  show b2.chains.length = b.chains.length
  refine foldlM_keep (μ := fun b : Goban => b.chains.length) ?_ e2
  intro b a b' e
  obtain ⟨_, _, e⟩ := bind_eq_ok e
  obtain ⟨_, _, e⟩ := bind_eq_ok e
  cases e
  exact setChain_clen _ _ _

theorem removeCaptured_clen {b : Goban} {sa : Bool} {dead : List Nat} {added : Nat} {s : Goban.Captures}
    (e : b.removeCapturedStonesAux dbg sa dead added = .ok s) : s.goban.chains.length = b.chains.length := by
  unfold Goban.removeCapturedStonesAux at e
  dsimp only at e
  obtain ⟨s1, e1, e⟩ := bind_eq_ok e
  obtain ⟨ch, _, e⟩ := bind_eq_ok e
  have h1 := foldlM_keep (μ := fun s : Goban.Captures => s.goban.chains.length) (by
    intro s k s' e
    unfold Goban.captureStep at e
    obtain ⟨_, _, e⟩ := bind_eq_ok e
    dsimp only at e
    split at e
    · obtain ⟨_, _, e⟩ := bind_eq_ok e
      obtain ⟨b', e2, e⟩ := bind_eq_ok e
      cases e
      exact removeChain_clen e2
    · obtain ⟨_, _, e⟩ := bind_eq_ok e
      obtain ⟨b', e2, e⟩ := bind_eq_ok e
      cases e
      exact removeChain_clen e2) e1
  dsimp only at h1
  split at e
  · obtain ⟨b2, e2, e⟩ := bind_eq_ok e
    cases e
    dsimp only
    rw [removeChain_clen e2, h1]
  · cases e; exact h1

/-- A play never shortens the group table. -/
theorem play_clen {g g' : Game} {mv : Move} (e : g.play dbg mv = .ok g') : g.goban.chains.length ≤ g'.goban.chains.length := by
  cases mv with
  | pass =>
    unfold Game.play at e
    obtain ⟨_, _, e⟩ := bind_eq_ok e
    cases e; exact Nat.le_refl _
  | resign c => cases e; exact Nat.le_refl _
  | play x y =>
    rw [play_eq] at e
    obtain ⟨l, _, e⟩ := bind_eq_ok e
    obtain ⟨s, e1, e⟩ := bind_eq_ok e
    cases e
    unfold Goban.move at e1
    obtain ⟨f, e2, e1⟩ := bind_eq_ok e1
    obtain ⟨_, a, _, _, h⟩ := pushWthFeedback_clen e2
    dsimp only
    rw [removeCaptured_clen e1, h]
    exact Nat.le_add_right _ _

theorem tryPlay_clen {g : Game} {mv : Move} {r : Option PlayError × Game} (e : g.tryPlay dbg mv = .ok r) :
    g.goban.chains.length ≤ r.2.goban.chains.length := by
  unfold Game.tryPlay at e
  split at e
  · cases e; exact Nat.le_refl _
  cases mv with
  | play x y =>
    dsimp only at e
    obtain ⟨o, _, e⟩ := bind_eq_ok e
    split at e
    · cases e; exact Nat.le_refl _
    obtain ⟨o, _, e⟩ := bind_eq_ok e
    cases o with
    | some x => cases e; exact Nat.le_refl _
    | none =>
      dsimp only at e
      obtain ⟨g', e1, e⟩ := bind_eq_ok e
      cases e
      exact play_clen e1
  | pass =>
    dsimp only at e
    obtain ⟨g', e1, e⟩ := bind_eq_ok e
    cases e
    exact play_clen e1
  | resign c =>
    dsimp only at e
    obtain ⟨g', e1, e⟩ := bind_eq_ok e
    cases e
    exact play_clen e1

theorem run_clen : ∀ {cs : List GOp} {g : Game} {r : List (Option PlayError) × Game}, g.run dbg cs = .ok r →
    g.goban.chains.length ≤ r.2.goban.chains.length
  | [], g, r, e => by cases e; exact Nat.le_refl _
  | c :: cs, g, r, e => by
    unfold Game.run at e
    obtain ⟨r1, e1, e⟩ := bind_eq_ok e
    obtain ⟨r2, e2, e⟩ := bind_eq_ok e
    cases e
    show g.goban.chains.length ≤ r2.2.goban.chains.length
    refine Nat.le_trans ?_ (run_clen e2)
    cases c with
    | try_ mv => exact tryPlay_clen e1
    | resume => cases e1; exact Nat.le_refl _
    | setKomi k => cases e1; exact Nat.le_refl _

/-- A stone with no neighbour of its own colour takes a new slot. -/
theorem push_isolated {b : Goban} (h : Inv n b) {p : Coord} {c : Color} (hp : OnBoard n p)
    (hiso : ∀ q, Adj p q → OnBoard n q → b.view q ≠ some c) {f : Goban.Feedback} (e : b.pushWthFeedback dbg p c = .ok f) :
    f.goban.chains.length = b.chains.length + 1 := by
  obtain ⟨nbs, a, e1, e2, e3⟩ := pushWthFeedback_clen e
  have hpN := twoTo1_lt h.good hp
  rw [h.size, neighborsIdx_ok h.size h.good hpN] at e1
  cases e1
  obtain ⟨a', e4, ha⟩ := around_ok (c := c) h.rep (fun x hx => h.lt361 (nbrs_lt h.good hpN hx))
  rw [e4] at e2; cases e2
  rw [e3, if_neg]
  intro hl
  obtain ⟨k, hk⟩ := List.length_eq_one_iff.1 hl
  obtain ⟨j, hj, hbj, hcj⟩ := (ha.same k).1 (by rw [hk]; simp)
  obtain ⟨hj1, hj2⟩ := (mem_nbrs h.good hpN).1 hj
  have hO := ptOf_onBoard hj1
  refine hiso (ptOf n j) ?_ hO ?_
  · rwa [ptOf_twoTo1 h.good hp] at hj2
  · rw [h.view hO, twoTo1_ptOf]
    exact hcj

/-- With a full table, putting a stone with no neighbour of its own colour panics. -/
theorem push_full {b : Goban} (h : Inv n b) (hfull : b.chains.length = 65535) {p : Coord} {c : Color} (hp : OnBoard n p)
    (hv : b.view p = none) (hiso : ∀ q, Adj p q → OnBoard n q → b.view q ≠ some c) :
    b.pushWthFeedback dbg p c = panic := by
  rcases push_total (dbg := dbg) (c := c) h hp ((h.view_none_iff hp).1 hv) with ⟨f, e, hf⟩ | ⟨e, _⟩
  · have h1 := push_isolated h hp hiso e
    have h2 := hf.inv.rep.few
    omega
  · exact e

end Model
