import Verif.Proofs.Grow
/-!
# Used-up slots of the group table

No call revives a slot of the group table: a slot once emptied stays empty, and every capture empties one. With `Grow.lean` this
bounds the number of stones that can be played on a board before it panics, whatever the rules.
-/

namespace Model
open Spec (OnBoard Adj)

variable {dbg : Bool} {n : Dim} {m : Nat}

/-- Number of emptied slots. -/
def spent (cs : Groups) : Nat := cs.countP Option.isNone

theorem spent_le (cs : Groups) : spent cs ≤ cs.length := List.countP_le_length

theorem foldlM_mono {α β} {f : β → α → M β} {μ : β → Nat} (h : ∀ b a b', f b a = .ok b' → μ b ≤ μ b') :
    ∀ {l : List α} {b b' : β}, l.foldlM f b = .ok b' → μ b ≤ μ b'
  | [], b, b', e => by cases e; exact Nat.le_refl _
  | a :: l, b, b', e => by
    rw [List.foldlM_cons] at e
    obtain ⟨b1, e1, e⟩ := bind_eq_ok e
    exact Nat.le_trans (h _ _ _ e1) (foldlM_mono h e)

theorem chainAt_some {cs : Groups} {k : Nat} {grp : Group} (e : Groups.chainAt cs k = .ok grp) : cs[k]? = some (some grp) := by
  unfold Groups.chainAt at e
  split at e
  · rename_i h; cases e; exact h
  · cases e

theorem spent_set_some {cs : Groups} {k : Nat} {grp grp' : Group} (e : Groups.chainAt cs k = .ok grp) :
    spent (cs.set k (some grp')) = spent cs := by
  have h := chainAt_some e
  obtain ⟨hk, h1⟩ := List.getElem?_eq_some_iff.1 h
  unfold spent
  rw [List.countP_set hk, h1]
  simp

theorem spent_set_none {cs : Groups} {k : Nat} (hk : ∃ grp, cs[k]? = some (some grp)) :
    spent (cs.set k none) = spent cs + 1 := by
  obtain ⟨grp, h⟩ := hk
  obtain ⟨hk, h1⟩ := List.getElem?_eq_some_iff.1 h
  unfold spent
  rw [List.countP_set hk, h1]
  simp

theorem spent_set_none_le (cs : Groups) (k : Nat) : spent cs ≤ spent (cs.set k none) := by
  unfold spent
  by_cases hk : k < cs.length
  · rw [List.countP_set hk]
    have : (cs[k].isNone → 0 < List.countP Option.isNone cs) := fun h => List.countP_pos_iff.2 ⟨_, List.getElem_mem hk, h⟩
    split
    · rename_i h; have := this h; simp; omega
    · simp
  · rw [List.set_eq_of_length_le (by omega)]; exact Nat.le_refl _

theorem setBoard_chains {b b' : Goban} {i : Nat} {o : Option Nat} (e : b.setBoard i o = .ok b') : b'.chains = b.chains := by
  unfold Goban.setBoard at e
  split at e
  · cases e; rfl
  · cases e

theorem setNext_chains {b b' : Goban} {i v : Nat} (e : b.setNext i v = .ok b') : b'.chains = b.chains := by
  unfold Goban.setNext at e
  split at e
  · cases e; rfl
  · cases e

theorem swapNext_chains {b b' : Goban} {i j : Nat} (e : b.swapNext i j = .ok b') : b'.chains = b.chains := by
  unfold Goban.swapNext at e
  split at e
  · cases e; rfl
  · cases e

theorem setChain_spent {b : Goban} {k : Nat} {grp grp' : Group} (e : b.chains.chainAt k = .ok grp) :
    spent (b.setChain k grp').chains = spent b.chains := spent_set_some e

theorem update_chains {b b' : Goban} {k : Nat} (e : b.updateChainIndexesInBoard dbg k = .ok b') : b'.chains = b.chains := by
  unfold Goban.updateChainIndexesInBoard at e
  obtain ⟨_, _, e⟩ := bind_eq_ok e
  obtain ⟨pts, _, e⟩ := bind_eq_ok e
  obtain ⟨_, _, e⟩ := bind_eq_ok e
  clear * - e
  induction pts generalizing b with
  | nil => cases e; rfl
  | cons a l ih =>
    rw [List.foldlM_cons] at e
    obtain ⟨b1, e1, e⟩ := bind_eq_ok e
    rw [ih e]
    split at e1
    · cases e1
    · exact setBoard_chains e1

theorem createChain_spent {b : Goban} {i : Nat} {c : Color} {l : List Nat} {r : Nat × Goban} (e : b.createChain dbg i c l = .ok r) :
    spent r.2.chains = spent b.chains := by
  unfold Goban.createChain at e
  obtain ⟨lib, _, e⟩ := bind_eq_ok e
  obtain ⟨b1, e1, e⟩ := bind_eq_ok e
  unfold Groups.putFreeSpot at e
  dsimp only at e
  obtain ⟨b2, e2, e⟩ := bind_eq_ok e
  cases e
  dsimp only
  rw [update_chains e2]
  dsimp only
  rw [setNext_chains e1]
  unfold spent
  rw [List.countP_append]
  simp

theorem addStoneToChain_spent {b r : Goban} {k i : Nat} (e : b.addStoneToChain dbg k i = .ok r) :
    spent r.chains = spent b.chains := by
  unfold Goban.addStoneToChain at e
  obtain ⟨grp, hk, e⟩ := bind_eq_ok e
  have fin : ∀ {b1 : Goban} {g1 : Group}, b1.chains = b.chains → (do
      let n ← addU16 dbg g1.numStones 1
      let grp := { g1 with numStones := n }
      let g := b1.setChain k grp
      if dbg then
        let l ← grp.iter dbg g.nextStone
        debugAssert dbg (l.getLast?.map u16 == some grp.last)
      .ok g : M Goban) = .ok r → spent r.chains = spent b.chains := by
    intro b1 g1 hb e
    obtain ⟨nn, _, e⟩ := bind_eq_ok e
    dsimp only at e
    have hk' : b1.chains.chainAt k = .ok grp := by rw [hb]; exact hk
    cases dbg
    · cases e; rw [setChain_spent hk', hb]
    · obtain ⟨_, _, e⟩ := bind_eq_ok e
      obtain ⟨_, _, e⟩ := bind_eq_ok e
      cases e; rw [setChain_spent hk', hb]
  dsimp only at e
  split at e
  · obtain ⟨b1, e1, e⟩ := bind_eq_ok e
    obtain ⟨b2, e2, e⟩ := bind_eq_ok e
    exact fin (by rw [setNext_chains e2, setNext_chains e1]) e
  · obtain ⟨b1, e1, e⟩ := bind_eq_ok e
    obtain ⟨b2, e2, e⟩ := bind_eq_ok e
    exact fin (by rw [setNext_chains e2, setNext_chains e1]) e

theorem mergeStrings_spent {b b' : Goban} {k j : Nat} (e : b.mergeStrings dbg k j = .ok b') :
    spent b.chains ≤ spent b'.chains := by
  unfold Goban.mergeStrings at e
  obtain ⟨c1, hk, e⟩ := bind_eq_ok e
  obtain ⟨c2, _, e⟩ := bind_eq_ok e
  obtain ⟨_, _, e⟩ := bind_eq_ok e
  obtain ⟨_, _, e⟩ := bind_eq_ok e
  dsimp only at e
  obtain ⟨b1, e1, e⟩ := bind_eq_ok e
  obtain ⟨nn, _, e⟩ := bind_eq_ok e
  obtain ⟨b2, e2, e⟩ := bind_eq_ok e
  obtain ⟨cs, e3, e⟩ := bind_eq_ok e
  cases e
  dsimp only
  unfold Groups.remove at e3
  split at e3
  · cases e3
    refine Nat.le_trans (Nat.le_of_eq ?_) (spent_set_none_le _ _)
    rw [update_chains e2]
    have hk' : b1.chains.chainAt k = .ok c1 := by rw [swapNext_chains e1]; exact hk
    rw [setChain_spent hk', swapNext_chains e1]
  · cases e3

theorem attach_spent {b : Goban} {i : Nat} {c : Color} {same libs : List Nat} {r : Nat × Goban}
    (e : b.attach dbg i c same libs = .ok r) : spent b.chains ≤ spent r.2.chains := by
  unfold Goban.attach at e
  split at e
  · exact Nat.le_of_eq (createChain_spent e).symm
  · obtain ⟨_, hk, e⟩ := bind_eq_ok e
    obtain ⟨_, _, e⟩ := bind_eq_ok e
    obtain ⟨_, _, e⟩ := bind_eq_ok e
    obtain ⟨b1, e1, e⟩ := bind_eq_ok e
    split at e
    · cases e
    · obtain ⟨b2, e2, e⟩ := bind_eq_ok e
      cases e
      dsimp only
      rw [setBoard_chains e2, addStoneToChain_spent e1, setChain_spent hk]
      exact Nat.le_refl _
  · obtain ⟨⟨t, b1⟩, e1, e⟩ := bind_eq_ok e
    obtain ⟨⟨b2, t2⟩, e2, e⟩ := bind_eq_ok e
    obtain ⟨_, hk, e⟩ := bind_eq_ok e
    obtain ⟨_, _, e⟩ := bind_eq_ok e
    cases e
    dsimp only
    have h3 := foldlM_mono (μ := fun st : Goban × Nat => spent st.1.chains) (f := Goban.mergeStep dbg) (by
      intro st a st' e
      unfold Goban.mergeStep at e
      obtain ⟨_, _, e⟩ := bind_eq_ok e
      obtain ⟨_, _, e⟩ := bind_eq_ok e
      split at e
      · obtain ⟨_, e3, e⟩ := bind_eq_ok e
        cases e; exact mergeStrings_spent e3
      · obtain ⟨_, e3, e⟩ := bind_eq_ok e
        cases e; exact mergeStrings_spent e3) e2
    dsimp only at h3 hk
    have h4 := createChain_spent e1
    dsimp only at h4
    rw [setChain_spent hk, ← h4]
    exact h3

theorem takeLiberty_spent {i : Nat} {l : List Nat} {st r : Goban × List Nat} (e : l.foldlM (Goban.takeLiberty dbg i) st = .ok r) :
    spent st.1.chains ≤ spent r.1.chains := by
  refine foldlM_mono (μ := fun st : Goban × List Nat => spent st.1.chains) ?_ e
  intro st a st' e
  unfold Goban.takeLiberty at e
  obtain ⟨_, hk, e⟩ := bind_eq_ok e
  obtain ⟨_, _, e⟩ := bind_eq_ok e
  cases e
  exact Nat.le_of_eq (setChain_spent hk).symm

theorem pushWthFeedback_spent {b : Goban} {p : Coord} {c : Color} {f : Goban.Feedback} (e : b.pushWthFeedback dbg p c = .ok f) :
    spent b.chains ≤ spent f.goban.chains := by
  unfold Goban.pushWthFeedback at e
  obtain ⟨nbs, e0, e⟩ := bind_eq_ok e
  obtain ⟨a, ea, e⟩ := bind_eq_ok e
  obtain ⟨⟨b1, dead⟩, e1, e⟩ := bind_eq_ok e
  obtain ⟨⟨k, b2⟩, e2, e⟩ := bind_eq_ok e
  have h1 := takeLiberty_spent e1
  have h2 := attach_spent e2
  dsimp only at h1 h2
  obtain ⟨z, _, e⟩ := bind_eq_ok e
  dsimp only at e
  have : f.goban.chains = b2.chains := by
    cases dbg
    · cases e; rfl
    · obtain ⟨_, _, e⟩ := bind_eq_ok e
      cases e; rfl
  rw [this]
  exact Nat.le_trans h1 h2

/-- Removing a group uses up its slot. -/
theorem removeChain_spent {b b' : Goban} {k : Nat} (e : b.removeChain dbg k = .ok b') : spent b.chains + 1 = spent b'.chains := by
  unfold Goban.removeChain at e
  obtain ⟨ch, hk, e⟩ := bind_eq_ok e
  obtain ⟨b1, e1, e⟩ := bind_eq_ok e
  obtain ⟨pts, _, e1⟩ := Group.iterFold_ok e1
  obtain ⟨cs, e2, e⟩ := bind_eq_ok e
  cases e
  dsimp only
  -- the slots keep what they are, up to liberties
  have inner : ∀ {i : Nat} {ns : List Nat} {b b' : Goban}, ns.foldlM (fun (g : Goban) n => do
      let ch ← g.chains.chainAt n
      let ch ← ch.addLiberty dbg i
      .ok (g.setChain n ch)) b = .ok b' → spent b'.chains = spent b.chains ∧
        ∀ k : Nat, (∃ grp : Group, b.chains[k]? = some (some grp)) → ∃ grp : Group, b'.chains[k]? = some (some grp) := by
    intro i ns
    induction ns with
    | nil => intro b b' e; cases e; exact ⟨rfl, fun _ h => h⟩
    | cons a l ih =>
      intro b b' e
      rw [List.foldlM_cons] at e
      obtain ⟨b1, e1, e⟩ := bind_eq_ok e
      obtain ⟨c1, h1, e1⟩ := bind_eq_ok e1
      obtain ⟨c2, _, e1⟩ := bind_eq_ok e1
      cases e1
      obtain ⟨i1, i2⟩ := ih e
      refine ⟨i1.trans (setChain_spent h1), fun k hk => i2 k ?_⟩
      obtain ⟨grp, hk⟩ := hk
      unfold Goban.setChain
      dsimp only
      rw [List.getElem?_set]
      split
      · rename_i hak
        subst hak
        obtain ⟨hl, _⟩ := List.getElem?_eq_some_iff.1 hk
        rw [if_pos hl]
        exact ⟨_, rfl⟩
      · exact ⟨grp, hk⟩
  have outer : ∀ {pts : List Nat} {b b' : Goban}, pts.foldlM (Goban.removeStoneStep dbg k ch.color) b = .ok b' →
      spent b'.chains = spent b.chains ∧
        ∀ k : Nat, (∃ grp : Group, b.chains[k]? = some (some grp)) → ∃ grp : Group, b'.chains[k]? = some (some grp) := by
    intro pts
    induction pts with
    | nil => intro b b' e; cases e; exact ⟨rfl, fun _ h => h⟩
    | cons a l ih =>
      intro b b' e
      rw [List.foldlM_cons] at e
      obtain ⟨b1, e1, e⟩ := bind_eq_ok e
      unfold Goban.removeStoneStep at e1
      obtain ⟨ns, _, e1⟩ := bind_eq_ok e1
      dsimp only at e1
      obtain ⟨b2, e2, e1⟩ := bind_eq_ok e1
      obtain ⟨z, _, e1⟩ := bind_eq_ok e1
      obtain ⟨i1, i2⟩ := ih e
      have := setBoard_chains e1
      dsimp only at this
      rw [this] at i1 i2
      obtain ⟨j1, j2⟩ := inner e2
      exact ⟨i1.trans j1, fun k hk => i2 k (j2 k hk)⟩
  obtain ⟨h1, h2⟩ := outer e1
  unfold Groups.remove at e2
  split at e2
  · cases e2
    rw [spent_set_none (h2 k ⟨ch, chainAt_some hk⟩), h1]
  · cases e2

/-- Slots used up by the removals of a move: as many as groups removed; and if there is none, nothing at all happens. -/
theorem removeCaptured_spent {b : Goban} {sa : Bool} {dead : List Nat} {added : Nat} {s : Goban.Captures}
    (e : b.removeCapturedStonesAux dbg sa dead added = .ok s) :
    spent b.chains + 1 ≤ spent s.goban.chains ∨ (s.goban = b ∧ s.removed = (0, 0)) := by
  unfold Goban.removeCapturedStonesAux at e
  dsimp only at e
  obtain ⟨s1, e1, e⟩ := bind_eq_ok e
  obtain ⟨ch, _, e⟩ := bind_eq_ok e
  have step : ∀ s k s', Goban.captureStep dbg (dead.length == 1) s k = .ok s' → spent s.goban.chains + 1 = spent s'.goban.chains := by
    intro s k s' e
    unfold Goban.captureStep at e
    obtain ⟨_, _, e⟩ := bind_eq_ok e
    dsimp only at e
    split at e
    · obtain ⟨_, _, e⟩ := bind_eq_ok e
      obtain ⟨b', e2, e⟩ := bind_eq_ok e
      cases e
      exact removeChain_spent e2
    · obtain ⟨_, _, e⟩ := bind_eq_ok e
      obtain ⟨b', e2, e⟩ := bind_eq_ok e
      cases e
      exact removeChain_spent e2
  have h1 : spent b.chains + 1 ≤ spent s1.goban.chains ∨ (s1.goban = b ∧ s1.removed = (0, 0)) := by
    cases dead with
    | nil => cases e1; exact Or.inr ⟨rfl, rfl⟩
    | cons k l =>
      rw [List.foldlM_cons] at e1
      obtain ⟨s2, e2, e1⟩ := bind_eq_ok e1
      left
      have a1 := step _ _ _ e2
      dsimp only at a1
      rw [a1]
      exact foldlM_mono (μ := fun s : Goban.Captures => spent s.goban.chains) (fun s k s' e => by
        rw [← step _ _ _ e]; exact Nat.le_succ _) e1
  split at e
  · obtain ⟨b2, e2, e⟩ := bind_eq_ok e
    cases e
    left
    dsimp only
    rw [← removeChain_spent e2]
    rcases h1 with h1 | ⟨h1, _⟩
    · omega
    · rw [h1]; exact Nat.le_refl _
  · cases e; exact h1

end Model
