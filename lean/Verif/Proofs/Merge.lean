import Verif.Proofs.Rep
/-!
# `merge_strings` joins two circular stone lists
-/

namespace Model
open Bits (has)

theorem merge_ok {dbg : Bool} {g : Goban} {k1 k2 : Nat} {c1 c2 : Group} (h : Rep g) (h1 : g.ch k1 = some c1)
    (h2 : g.ch k2 = some c2) (hcol : c1.color = c2.color) (hne : k1 ≠ k2) :
    ∃ g' : Goban, g.mergeStrings dbg k1 k2 = .ok g' ∧ Rep g' ∧ g'.size = g.size ∧ g'.zobristHash = g.zobristHash ∧
      g'.chains.length = g.chains.length ∧
      (∀ i, g'.bd i = if g.bd i = some k2 then some k1 else g.bd i) ∧
      (∀ j, j ≠ k1 → g'.ch j = if j = k2 then none else g.ch j) ∧
      ∃ c', g'.ch k1 = some c' ∧ c'.color = c1.color ∧
        ∀ x, has x c'.liberties = (has x c1.liberties || has x c2.liberties) := by
  obtain ⟨l1, hc1⟩ := h.chain k1 c1 h1
  obtain ⟨l2, hc2⟩ := h.chain k2 c2 h2
  have hk1 := Goban.ch_lt h1
  have hk2 := Goban.ch_lt h2
  have hfew := h.few
  have hdisj : ∀ a, a ∈ l1 → a ∈ l2 → False := by
    intro a ha1 ha2
    have e1 := (hc1.mem a).2 ha1
    have e2 := (hc2.mem a).2 ha2
    rw [e1] at e2; exact hne (Option.some.inj e2)
  have hz1 := hc1.lt h.nlen _ hc1.last_mem
  have hz2 := hc2.lt h.nlen _ hc2.last_mem
  have hzz : c1.last ≠ c2.last := fun h' => hdisj _ hc1.last_mem (h' ▸ hc2.last_mem)
  have hlenlib : (Bits.merge c1.liberties c2.liberties).length = 46 := by
    rw [Bits.merge_length (hc1.libs.trans hc2.libs.symm), hc1.libs]
  have hnd12 : (l1 ++ l2).Nodup := by
    rw [List.nodup_append]
    exact ⟨hc1.nodup, hc2.nodup, fun a ha b hb hab => hdisj a ha (hab ▸ hb)⟩
  have hnd21 : (l2 ++ l1).Nodup := by
    rw [List.nodup_append]
    exact ⟨hc2.nodup, hc1.nodup, fun a ha b hb hab => hdisj a (hab ▸ hb) ha⟩
  have hlen12 : (l1 ++ l2).length ≤ 361 :=
    nodup_length_le hnd12 (fun a ha => by
      rcases List.mem_append.1 ha with ha | ha
      · exact hc1.lt h.nlen a ha
      · exact hc2.lt h.nlen a ha)
  have hlast1 : g.nextStone[c1.last]? = some c1.origin ∧ g.nextStone[c2.last]? = some c2.origin := by
    have aux : ∀ (nx : List Nat) (o : Nat) (l : List Nat) (z : Nat), Walk nx o l → l.getLast? = some z → nx[z]? = some o := by
      intro nx o l
      induction l with
      | nil => intro z hw; exact hw.elim
      | cons a t ih =>
        intro z hw hz
        cases t with
        | nil => simp at hz; subst hz; exact hw
        | cons b t => rw [List.getLast?_cons_cons] at hz; exact ih z hw.2 hz
    exact ⟨aux _ _ _ _ hc1.walk hc1.last, aux _ _ _ _ hc2.walk hc2.last⟩
  -- the new links
  let nx := (g.nextStone.set c1.last c2.origin).set c2.last c1.origin
  have hnx1 : nx[c1.last]? = some c2.origin := by
    show ((g.nextStone.set _ _).set _ _)[_]? = _
    rw [getElem?_set_ne' (Ne.symm hzz)]
    exact getElem?_set_eq' (by rw [h.nlen]; exact hz1)
  have hnx2 : nx[c2.last]? = some c1.origin := getElem?_set_eq' (by rw [List.length_set, h.nlen]; exact hz2)
  have hnxo : ∀ a, a ≠ c1.last → a ≠ c2.last → nx[a]? = g.nextStone[a]? := by
    intro a ha1 ha2
    show ((g.nextStone.set _ _).set _ _)[_]? = _
    rw [getElem?_set_ne' (Ne.symm ha2), getElem?_set_ne' (Ne.symm ha1)]
  have hnxl : nx.length = 361 := by
    show ((g.nextStone.set _ _).set _ _).length = _
    rw [List.length_set, List.length_set, h.nlen]
  have hw1 : Walk nx c2.origin l1 := by
    apply hc1.walk.relink hc1.nodup hc1.last hnx1
    intro a ha hal
    exact hnxo a hal (fun h' => hdisj a ha (h' ▸ hc2.last_mem))
  have hw2 : Walk nx c1.origin l2 := by
    apply hc2.walk.relink hc2.nodup hc2.last hnx2
    intro a ha hal
    exact hnxo a (fun h' => hdisj a (h' ▸ hc1.last_mem) ha) hal
  have hw12 : Walk nx c1.origin (l1 ++ l2) := by
    cases hl : l2 with
    | nil => rw [hl] at hw2; exact hw2.elim
    | cons b t =>
      have hb : b = c2.origin := by have := hc2.head; rw [hl] at this; simpa using this
      apply Walk.append
      · rw [hb]; exact hw1
      · rw [← hl]; exact hw2
  have hw21 : Walk nx c2.origin (l2 ++ l1) := by
    cases hl : l1 with
    | nil => rw [hl] at hw1; exact hw1.elim
    | cons b t =>
      have hb : b = c1.origin := by have := hc1.head; rw [hl] at this; simpa using this
      apply Walk.append
      · rw [hb]; exact hw2
      · rw [← hl]; exact hw1
  -- the merged group and its list
  let lib := Bits.merge c1.liberties c2.liberties
  let c1' : Group := if c1.origin > c2.origin then { c1 with liberties := lib, origin := c2.origin }
    else { c1 with liberties := lib, last := c2.last }
  let c' : Group := { c1' with numStones := c1.numStones + c2.numStones }
  let l := if c1.origin > c2.origin then l2 ++ l1 else l1 ++ l2
  have hlnd : l.Nodup := by show (if _ then _ else _ : List Nat).Nodup; split <;> assumption
  have hlmem : ∀ i, i ∈ l ↔ i ∈ l1 ∨ i ∈ l2 := by
    intro i
    show i ∈ (if _ then _ else _ : List Nat) ↔ _
    split
    · rw [List.mem_append]; exact Or.comm
    · rw [List.mem_append]
  have hllen : l.length = l1.length + l2.length := by
    show (if _ then _ else _ : List Nat).length = _
    split
    · rw [List.length_append]; omega
    · rw [List.length_append]
  have hwalk : Walk nx c'.origin l := by
    show Walk nx (if _ then _ else _ : Group).origin (if _ then _ else _ : List Nat)
    split
    · exact hw21
    · exact hw12
  have hhead : l.head? = some c'.origin := by
    show (if _ then _ else _ : List Nat).head? = some (if _ then _ else _ : Group).origin
    split
    · rw [List.head?_append, hc2.head]; rfl
    · rw [List.head?_append, hc1.head]; rfl
  have hlast : l.getLast? = some c'.last := by
    show (if _ then _ else _ : List Nat).getLast? = some (if _ then _ else _ : Group).last
    split
    · rw [List.getLast?_append, hc1.last]; rfl
    · rw [List.getLast?_append, hc2.last]; rfl
  have hmin : ∀ a ∈ l, c'.origin ≤ a := by
    intro a ha
    have ha' := (hlmem a).1 ha
    show (if _ then _ else _ : Group).origin ≤ a
    rcases ha' with ha' | ha'
    · have := hc1.min a ha'
      split
      · simp only; omega
      · exact this
    · have := hc2.min a ha'
      split
      · exact this
      · simp only; omega
  have hlib : c'.liberties = lib := by
    show (if _ then _ else _ : Group).liberties = lib
    split <;> rfl
  have hcolor : c'.color = c1.color := by
    show (if _ then _ else _ : Group).color = c1.color
    split <;> rfl
  have hnum : c'.numStones = l.length := by
    show c1.numStones + c2.numStones = _
    rw [hllen, hc1.num, hc2.num]
  -- run the code
  let g2 : Goban := { g with nextStone := nx, chains := g.chains.set k1 (some c') }
  have hg2 : g2.ch k1 = some c' := by
    show ((g.chains.set k1 (some c'))[k1]?).join = _
    rw [Goban.ch_set hk1, if_pos rfl]
  have hit : c'.iter dbg g2.nextStone = .ok l := by
    show Group.iterFrom dbg nx c'.origin (nx.length + 1) c'.origin = _
    have hlen : l.length ≤ 361 := by rw [hllen, ← List.length_append]; exact hlen12
    cases hl : l with
    | nil => rw [hl] at hwalk; exact hwalk.elim
    | cons a t =>
      rw [hl] at hwalk hhead hlnd hlen
      have ha : a = c'.origin := by simpa using hhead
      have hnd' := hlnd
      rw [List.nodup_cons] at hnd'
      have := Walk.iterFrom (dbg := dbg) t a (nx.length + 1) hwalk hlnd (ha ▸ hnd'.1) (by rw [hnxl]; exact Nat.le_succ_of_le hlen)
      rw [← ha]; rw [← ha] at this; exact this
  have hll : ∀ a ∈ l, a < g2.board.length := by
    intro a ha
    show a < g.board.length
    rw [h.blen]
    rcases (hlmem a).1 ha with ha | ha
    · exact hc1.lt h.nlen a ha
    · exact hc2.lt h.nlen a ha
  obtain ⟨b, e, hbl, hbb⟩ := updateChainIndexes_ok (dbg := dbg) hg2 hit hlast hll h.blen (by omega)
  let g' : Goban := { g2 with board := b, chains := (g.chains.set k1 (some c')).set k2 none }
  have hch : ∀ j, g'.ch j = if j = k2 then none else if j = k1 then some c' else g.ch j := by
    intro j
    show (((g.chains.set k1 (some c')).set k2 none)[j]?).join = _
    rw [Goban.ch_set (by rw [List.length_set]; exact hk2), Goban.ch_set hk1]
    rfl
  have hbd : ∀ i, g'.bd i = if g.bd i = some k2 then some k1 else g.bd i := by
    intro i
    refine (hbb i).trans ?_
    by_cases hi : i ∈ l
    · rw [if_pos hi]
      rcases (hlmem i).1 hi with h' | h'
      · have := (hc1.mem i).2 h'
        rw [this, if_neg]
        intro h''; exact hne (Option.some.inj h'')
      · rw [if_pos ((hc2.mem i).2 h')]
    · rw [if_neg hi, if_neg]
      · rfl
      · intro h'; exact hi ((hlmem i).2 (Or.inr ((hc2.mem i).1 h')))
  refine ⟨g', ?_, ?_, rfl, rfl, ?_, hbd, ?_, c', ?_, hcolor, ?_⟩
  · unfold Goban.mergeStrings
    rw [Goban.chainAt_ok h1, ok_bind, Goban.chainAt_ok h2, ok_bind]
    rw [show assertM (c1.color == c2.color) = .ok () by simp [assertM, hcol], ok_bind,
      show assertM (k1 != k2) = .ok () by simp [assertM, hne], ok_bind]
    unfold Goban.swapNext
    dsimp only
    rw [hlast1.1, hlast1.2]
    simp only [ok_bind]
    have hadd : addU16 dbg c1.numStones c2.numStones = .ok (c1.numStones + c2.numStones) := by
      unfold addU16
      rw [if_pos]
      rw [hc1.num, hc2.num, ← List.length_append]; omega
    rw [hadd, ok_bind]
    show (Goban.updateChainIndexesInBoard dbg g2 k1 >>= _) = _
    rw [e, ok_bind]
    unfold Groups.remove
    rw [if_pos (by show k2 < (g.chains.set k1 _).length; rw [List.length_set]; exact hk2), ok_bind]
  · refine ⟨hbl.trans h.blen, hnxl, ?_, ?_, ?_⟩
    · intro j gj hj
      rw [hch] at hj
      by_cases hj2 : j = k2
      · rw [if_pos hj2] at hj; cases hj
      · rw [if_neg hj2] at hj
        by_cases hj1 : j = k1
        · rw [if_pos hj1] at hj; cases hj
          refine ⟨l, hlnd, hwalk, hhead, hlast, hnum, hmin, by rw [hlib]; exact hlenlib, ?_⟩
          intro i
          rw [hbd, hlmem, ← hc1.mem, ← hc2.mem, hj1]
          by_cases hi : g.bd i = some k2
          · simp [hi]
          · simp [hi]
        · rw [if_neg hj1] at hj
          obtain ⟨lj, hcj⟩ := h.chain j gj hj
          refine ⟨lj, hcj.nodup, ?_, hcj.head, hcj.last, hcj.num, hcj.min, hcj.libs, ?_⟩
          · apply hcj.walk.congr
            intro a ha
            have hba := (hcj.mem a).2 ha
            apply hnxo
            · rintro rfl
              have := (hc1.mem _).2 hc1.last_mem
              rw [hba] at this; exact hj1 (Option.some.inj this)
            · rintro rfl
              have := (hc2.mem _).2 hc2.last_mem
              rw [hba] at this; exact hj2 (Option.some.inj this)
          · intro i
            rw [hbd, ← hcj.mem i]
            by_cases hi : g.bd i = some k2
            · rw [if_pos hi, hi]; simp [Ne.symm hj1, Ne.symm hj2]
            · rw [if_neg hi]
    · intro i j hj
      rw [hbd] at hj
      rw [hch]
      by_cases hi : g.bd i = some k2
      · rw [if_pos hi] at hj; cases hj
        exact ⟨c', by rw [if_neg hne, if_pos rfl]⟩
      · rw [if_neg hi] at hj
        have : j ≠ k2 := fun h' => hi (h' ▸ hj)
        rw [if_neg this]
        by_cases hj1 : j = k1
        · exact ⟨c', if_pos hj1⟩
        · rw [if_neg hj1]; exact h.live i j hj
    · show ((g.chains.set k1 _).set k2 _).length ≤ _
      rw [List.length_set, List.length_set]; exact hfew
  · show ((g.chains.set k1 _).set k2 _).length = _
    rw [List.length_set, List.length_set]
  · intro j hj; rw [hch, if_neg hj]
  · rw [hch, if_neg hne, if_pos rfl]
  · intro x; rw [hlib]; exact Bits.merge_has (hc1.libs.trans hc2.libs.symm) x

/-! ### Attaching the new stone -/

/-- Effect of attaching the stone `p` of colour `c` to the groups `same`: they all become group `t`, whose liberties are
described by `L`. -/
structure Att (g g' : Goban) (p : Nat) (c : Color) (same : List Nat) (t : Nat) (L : Nat → Prop) : Prop where
  rep : Rep g'
  size : g'.size = g.size
  hash : g'.zobristHash = g.zobristHash
  clen : g'.chains.length ≤ g.chains.length + 1
  bdt : ∀ i, (i = p ∨ ∃ k ∈ same, g.bd i = some k) → g'.bd i = some t
  bdo : ∀ i, i ≠ p → (∀ k ∈ same, g.bd i ≠ some k) → g'.bd i = g.bd i
  added : ∃ grp, g'.ch t = some grp ∧ grp.color = c ∧ ∀ x, has x grp.liberties = true ↔ L x
  other : ∀ j, j ≠ t → j ∉ same → g'.ch j = g.ch j
  gone : ∀ j, j ≠ t → j ∈ same → g'.ch j = none
  new : t ∈ same ∨ t = g.chains.length

theorem create_att {dbg : Bool} {g : Goban} {p : Nat} {c : Color} {libs : List Nat} (h : Rep g) (hp : p < 361)
    (hb : g.bd p = none) (hl : ∀ i ∈ libs, i < 368) (hk : g.chains.length < 65535) :
    ∃ g', g.createChain dbg p c libs = .ok (g.chains.length, g') ∧ Att g g' p c [] g.chains.length (fun x => x ∈ libs) := by
  obtain ⟨lib, b, hlen, hm, hbl, hbb, e⟩ := create_ok (dbg := dbg) (c := c) h hp hb hl hk
  refine ⟨_, e, create_rep h hp hb hk hlen hbl hbb, rfl, rfl, ?_, ?_, ?_, ?_, ?_, ?_, Or.inr rfl⟩
  · show (g.chains ++ [_]).length ≤ _
    simp
  · rintro i (rfl | ⟨k, hk, _⟩)
    · refine (hbb i).trans ?_
      simp
    · simp at hk
  · intro i hi _
    refine (hbb i).trans ?_
    rw [if_neg hi]
  · refine ⟨Group.newWithLiberties c p lib, ?_, rfl, hm⟩
    show ((g.chains ++ [some _])[g.chains.length]?).join = _
    simp
  · intro j hj _
    show ((g.chains ++ [some _])[j]?).join = _
    by_cases hj2 : j < g.chains.length
    · rw [List.getElem?_append_left hj2]; rfl
    · rw [List.getElem?_eq_none (by simp; omega)]
      unfold Goban.ch
      rw [List.getElem?_eq_none (by omega)]
  · intro j _ hj; simp at hj

/-- Liberties contributed by the groups `ks` of `g`. -/
def LibOf (g : Goban) (ks : List Nat) (x : Nat) : Prop := ∃ k ∈ ks, ∃ gk, g.ch k = some gk ∧ has x gk.liberties = true

theorem mergeStep_att {dbg : Bool} {g g' : Goban} {p : Nat} {c : Color} {done : List Nat} {t a : Nat} {ga : Group}
    {L : Nat → Prop} (h0 : Rep g) (h : Att g g' p c done t L) (hb : g.bd p = none) (ha : g.ch a = some ga)
    (hca : ga.color = c) (hnew : a ∉ done) :
    ∃ g'' t', Goban.mergeStep dbg (g', t) a = .ok (g'', t') ∧
      Att g g'' p c (done ++ [a]) t' (fun x => L x ∨ LibOf g [a] x) := by
  have hta : t ≠ a := by
    rintro rfl
    rcases h.new with h' | h'
    · exact hnew h'
    · have := Goban.ch_lt ha; omega
  have hga : g'.ch a = some ga := (h.other a (Ne.symm hta) hnew).trans ha
  obtain ⟨gt, ht, hct, hL⟩ := h.added
  have hsplit : ∀ i, (i = p ∨ ∃ k ∈ done, g.bd i = some k) ∨ (i ≠ p ∧ ∀ k ∈ done, g.bd i ≠ some k) := by
    intro i
    by_cases hi : i = p ∨ ∃ k ∈ done, g.bd i = some k
    · exact Or.inl hi
    · rw [not_or] at hi
      exact Or.inr ⟨hi.1, fun k hk hk' => hi.2 ⟨k, hk, hk'⟩⟩
  -- cells of group `a` are those of the start
  have hbda : ∀ i, g'.bd i = some a ↔ g.bd i = some a := by
    intro i
    rcases hsplit i with hi | ⟨hi1, hi2⟩
    · rw [h.bdt i hi]
      constructor
      · intro h'; exact absurd (Option.some.inj h') hta
      · intro h'
        rcases hi with rfl | ⟨k, hk, hk'⟩
        · rw [hb] at h'; cases h'
        · rw [h'] at hk'; exact absurd (Option.some.inj hk' ▸ hk) hnew
    · rw [h.bdo i hi1 hi2]
  have hbdt : ∀ i, g'.bd i = some t ↔ (i = p ∨ ∃ k ∈ done, g.bd i = some k) := by
    intro i
    constructor
    · intro h'
      rcases hsplit i with hi | ⟨hi1, hi2⟩
      · exact hi
      · rw [h.bdo i hi1 hi2] at h'
        rcases h.new with h'' | h''
        · exact absurd h' (hi2 t h'')
        · obtain ⟨gg, hgg⟩ := h0.live i t h'
          have := Goban.ch_lt hgg
          omega
    · exact h.bdt i
  have hlibs : ∀ x, LibOf g [a] x ↔ has x ga.liberties = true := by
    intro x
    unfold LibOf
    constructor
    · rintro ⟨k, hk, gk, e1, e2⟩
      rw [List.mem_singleton] at hk; subst hk
      rw [ha] at e1; cases e1; exact e2
    · intro h'; exact ⟨a, by simp, ga, ha, h'⟩
  have hext : ∀ i, (i = p ∨ ∃ k ∈ done ++ [a], g.bd i = some k) ↔ g'.bd i = some t ∨ g'.bd i = some a := by
    intro i
    rw [hbdt, hbda]
    constructor
    · rintro (h' | ⟨k, hk, hk'⟩)
      · exact Or.inl (Or.inl h')
      · rcases List.mem_append.1 hk with hk | hk
        · exact Or.inl (Or.inr ⟨k, hk, hk'⟩)
        · rw [List.mem_singleton] at hk; subst hk; exact Or.inr hk'
    · rintro ((h' | ⟨k, hk, hk'⟩) | h')
      · exact Or.inl h'
      · exact Or.inr ⟨k, by simp [hk], hk'⟩
      · exact Or.inr ⟨a, by simp, h'⟩
  have hext2 : ∀ i, i ≠ p → (∀ k ∈ done ++ [a], g.bd i ≠ some k) →
      g'.bd i ≠ some t ∧ g'.bd i ≠ some a ∧ g'.bd i = g.bd i := by
    intro i hi1 hi2
    have hn : ¬ (g'.bd i = some t ∨ g'.bd i = some a) := by
      rw [← hext]
      rintro (h' | ⟨k, hk, hk'⟩)
      · exact hi1 h'
      · exact hi2 k hk hk'
    rw [not_or] at hn
    exact ⟨hn.1, hn.2, h.bdo i hi1 (fun k hk => hi2 k (by simp [hk]))⟩
  unfold Goban.mergeStep
  dsimp only
  rw [Goban.chainAt_ok hga, ok_bind, Goban.chainAt_ok ht, ok_bind]
  split
  · -- merge `a` into `t`
    obtain ⟨g'', e, hr, hsz, hh, hcl, hbd, hch, c', hc', hcc, hl'⟩ :=
      merge_ok (dbg := dbg) h.rep ht hga (hct.trans hca.symm) hta
    refine ⟨g'', t, by rw [e, ok_bind], hr, hsz.trans h.size, hh.trans h.hash, by rw [hcl]; exact h.clen, ?_, ?_, ?_, ?_,
      ?_, ?_⟩
    · intro i hi
      rw [hbd]
      rcases (hext i).1 hi with h' | h'
      · rw [if_neg (by rw [h']; intro h''; exact hta (Option.some.inj h'')), h']
      · rw [if_pos h']
    · intro i hi1 hi2
      obtain ⟨_, e2, e3⟩ := hext2 i hi1 hi2
      rw [hbd, if_neg e2, e3]
    · refine ⟨c', hc', hcc.trans hct, ?_⟩
      intro x
      rw [hl', Bool.or_eq_true, hL, hlibs]
    · intro j hj hjn
      rw [hch j hj, if_neg (fun h' => hjn (by simp [h']))]
      exact h.other j hj (fun h' => hjn (by simp [h']))
    · intro j hj hjn
      rw [hch j hj]
      by_cases hja : j = a
      · rw [if_pos hja]
      · rw [if_neg hja]
        apply h.gone j hj
        rcases List.mem_append.1 hjn with h' | h'
        · exact h'
        · rw [List.mem_singleton] at h'; exact absurd h' hja
    · rcases h.new with h' | h'
      · exact Or.inl (by simp [h'])
      · exact Or.inr h'
  · -- merge `t` into `a`
    obtain ⟨g'', e, hr, hsz, hh, hcl, hbd, hch, c', hc', hcc, hl'⟩ :=
      merge_ok (dbg := dbg) h.rep hga ht (hca.trans hct.symm) (Ne.symm hta)
    refine ⟨g'', a, by rw [e, ok_bind], hr, hsz.trans h.size, hh.trans h.hash, by rw [hcl]; exact h.clen, ?_, ?_, ?_, ?_,
      ?_, Or.inl (by simp)⟩
    · intro i hi
      rw [hbd]
      rcases (hext i).1 hi with h' | h'
      · rw [if_pos h']
      · rw [if_neg (by rw [h']; intro h''; exact hta (Option.some.inj h'').symm), h']
    · intro i hi1 hi2
      obtain ⟨e1, _, e3⟩ := hext2 i hi1 hi2
      rw [hbd, if_neg e1, e3]
    · refine ⟨c', hc', hcc.trans hca, ?_⟩
      intro x
      rw [hl', Bool.or_eq_true, hL, hlibs]
      exact Or.comm
    · intro j hj hjn
      rw [hch j hj]
      by_cases hjt : j = t
      · rw [if_pos hjt]
        rcases h.new with h' | h'
        · exact absurd (by rw [hjt]; simp [h'] : j ∈ done ++ [a]) hjn
        · unfold Goban.ch
          rw [List.getElem?_eq_none (by omega)]; rfl
      · rw [if_neg hjt]
        exact h.other j hjt (fun h' => hjn (by simp [h']))
    · intro j hj hjn
      rw [hch j hj]
      by_cases hjt : j = t
      · rw [if_pos hjt]
      · rw [if_neg hjt]
        apply h.gone j hjt
        rcases List.mem_append.1 hjn with h' | h'
        · exact h'
        · rw [List.mem_singleton] at h'; exact absurd h' hj

theorem Att.congr {g g' p c same t} {L L' : Nat → Prop} (h : Att g g' p c same t L) (hL : ∀ x, L x ↔ L' x) :
    Att g g' p c same t L' := by
  obtain ⟨grp, h1, h2, h3⟩ := h.added
  exact ⟨h.rep, h.size, h.hash, h.clen, h.bdt, h.bdo, ⟨grp, h1, h2, fun x => (h3 x).trans (hL x)⟩, h.other, h.gone, h.new⟩

theorem LibOf_append {g : Goban} {a b : List Nat} {x : Nat} : LibOf g (a ++ b) x ↔ LibOf g a x ∨ LibOf g b x := by
  unfold LibOf
  constructor
  · rintro ⟨k, hk, h'⟩
    rcases List.mem_append.1 hk with hk | hk
    · exact Or.inl ⟨k, hk, h'⟩
    · exact Or.inr ⟨k, hk, h'⟩
  · rintro (⟨k, hk, h'⟩ | ⟨k, hk, h'⟩)
    · exact ⟨k, by simp [hk], h'⟩
    · exact ⟨k, by simp [hk], h'⟩

theorem mergeFold_att {dbg : Bool} {g : Goban} {p : Nat} {c : Color} {L : Nat → Prop} (h0 : Rep g) (hb : g.bd p = none) :
    ∀ (todo done : List Nat) (g' : Goban) (t : Nat), Att g g' p c done t (fun x => L x ∨ LibOf g done x) →
      (done ++ todo).Nodup → (∀ k ∈ todo, ∃ gk, g.ch k = some gk ∧ gk.color = c) →
      ∃ g'' t', todo.foldlM (Goban.mergeStep dbg) (g', t) = .ok (g'', t') ∧
        Att g g'' p c (done ++ todo) t' (fun x => L x ∨ LibOf g (done ++ todo) x) := by
  intro todo
  induction todo with
  | nil => intro done g' t h _ _; exact ⟨g', t, rfl, by simpa using h⟩
  | cons a todo ih =>
    intro done g' t h hnd hs
    obtain ⟨ga, ha, hca⟩ := hs a (by simp)
    have hnew : a ∉ done := by
      intro h'
      rw [List.nodup_append] at hnd
      exact hnd.2.2 a h' a (by simp) rfl
    obtain ⟨g1, t1, e1, h1⟩ := mergeStep_att (dbg := dbg) h0 h hb ha hca hnew
    have h1' := h1.congr (L' := fun x => L x ∨ LibOf g (done ++ [a]) x) (by
      intro x; rw [LibOf_append]; exact or_assoc)
    obtain ⟨g2, t2, e2, h2⟩ := ih (done ++ [a]) g1 t1 h1' (by simpa using hnd) (fun k hk => hs k (by simp [hk]))
    refine ⟨g2, t2, ?_, by simpa using h2⟩
    rw [List.foldlM_cons, e1, ok_bind, e2]

/-- `attach` (the three cases of `push_wth_feedback`): all groups in `same` and the stone become one group whose
liberties are the union of theirs and of `libs`, minus `p`. -/
theorem attach_att {dbg : Bool} {g : Goban} {p : Nat} {c : Color} {same libs : List Nat} (h0 : Rep g) (hp : p < 361)
    (hb : g.bd p = none) (hl : ∀ i ∈ libs, i < 368) (hpl : p ∉ libs)
    (hk : g.chains.length < 65535 ∨ same.length = 1) (hnd : same.Nodup)
    (hs : ∀ k ∈ same, ∃ gk, g.ch k = some gk ∧ gk.color = c ∧ (dbg = true → has p gk.liberties = true)) :
    ∃ g' t, g.attach dbg p c same libs = .ok (t, g') ∧
      Att g g' p c same t (fun x => x ≠ p ∧ (x ∈ libs ∨ LibOf g same x)) := by
  rcases same with _ | ⟨a, _ | ⟨b, rest⟩⟩
  · obtain ⟨g', e, h⟩ := create_att (dbg := dbg) (c := c) h0 hp hb hl (hk.resolve_right (by simp))
    refine ⟨g', _, e, h.congr ?_⟩
    intro x
    constructor
    · intro h'; exact ⟨fun h'' => hpl (h'' ▸ h'), Or.inl h'⟩
    · rintro ⟨_, h' | ⟨k, hk, _⟩⟩
      · exact h'
      · simp at hk
  · obtain ⟨ga, ha, hca, hpa⟩ := hs a (by simp)
    obtain ⟨la, hcha⟩ := h0.chain a ga ha
    have hlt := Goban.ch_lt ha
    obtain ⟨l1, e1, hl1, hh1⟩ := removeLiberty_ok (dbg := dbg) (i := p) hcha.libs (by omega) hpa
    obtain ⟨l2, e2, hl2, hh2⟩ := unionSlice_ok libs { ga with liberties := l1 } hl1 hl
    let ga2 : Group := { ga with liberties := l2 }
    have hrep1 : Rep (g.setChain a ga2) := h0.setLibs ha hl2
    have hch1 : (g.setChain a ga2).ch a = some ga2 := by rw [Goban.ch_setChain hlt, if_pos rfl]
    obtain ⟨nx, o, z, m, e3, hrep2⟩ := add_ok (dbg := dbg) hrep1 hp hb hch1
    have hbd : ∀ i, ((g.board.set p (some a))[i]?).join = if i = p then some a else g.bd i :=
      fun i => Goban.bd_set (by rw [h0.blen]; exact hp)
    have hch : ∀ (x : Group) j, (((g.chains.set a (some ga2)).set a (some x))[j]?).join = if j = a then some x else g.ch j := by
      intro x j
      rw [Goban.ch_set (by rw [List.length_set]; exact hlt), Goban.ch_set hlt]
      by_cases hj : j = a <;> simp [hj, Goban.ch]
    refine ⟨_, a, ?_, hrep2, rfl, rfl, ?_, ?_, ?_, ?_, ?_, ?_, Or.inl (by simp)⟩
    · unfold Goban.attach
      dsimp only
      rw [Goban.chainAt_ok ha, ok_bind, e1, ok_bind, e2, ok_bind]
      show ((g.setChain a ga2).addStoneToChain dbg a p >>= _) = _
      cases hadd : (g.setChain a ga2).addStoneToChain dbg a p with
      | error er => rw [hadd] at e3; cases e3
      | ok g3 =>
        rw [hadd, ok_bind] at e3
        rw [ok_bind]
        split at e3
        · cases e3
        · rename_i hne
          rw [if_neg hne, e3, ok_bind]
    · show ((g.chains.set a _).set a _).length ≤ _
      rw [List.length_set, List.length_set]; omega
    · rintro i (rfl | ⟨k, hk, hk'⟩)
      · exact (hbd i).trans (if_pos rfl)
      · rw [List.mem_singleton] at hk; subst hk
        refine (hbd i).trans ?_
        rw [hk']; simp
    · intro i hi _
      exact (hbd i).trans (if_neg hi)
    · refine ⟨_, (hch _ a).trans (if_pos rfl), hca, ?_⟩
      intro x
      show has x l2 = true ↔ _
      rw [hh2, hh1]
      have hLib : LibOf g [a] x ↔ has x ga.liberties = true := by
        unfold LibOf
        constructor
        · rintro ⟨k, hk, gk, e1, e2⟩
          rw [List.mem_singleton] at hk; subst hk
          rw [ha] at e1; cases e1; exact e2
        · intro h'; exact ⟨a, by simp, ga, ha, h'⟩
      rw [hLib]
      by_cases hx : x = p
      · simp [hx, hpl]
      · simp [hx]
    · intro j hj _
      exact (hch _ j).trans (if_neg hj)
    · intro j hj hja
      rw [List.mem_singleton] at hja; exact absurd hja hj
  · obtain ⟨g1, e1, h1⟩ := create_att (dbg := dbg) (c := c) h0 hp hb hl (hk.resolve_right (by simp))
    have h1' : Att g g1 p c [] g.chains.length (fun x => x ∈ libs ∨ LibOf g [] x) := h1.congr (by
      intro x
      constructor
      · exact Or.inl
      · rintro (h' | ⟨k, hk, _⟩)
        · exact h'
        · simp at hk)
    obtain ⟨g2, t, e2, h2⟩ := mergeFold_att (dbg := dbg) h0 hb (a :: b :: rest) [] g1 _ h1' (by simpa using hnd)
      (fun k hk => let ⟨gk, h1, h2, _⟩ := hs k hk; ⟨gk, h1, h2⟩)
    rw [List.nil_append] at h2
    obtain ⟨gt, ht, hct, hL⟩ := h2.added
    obtain ⟨lt, hcht⟩ := h2.rep.chain t gt ht
    have hpt : dbg = true → has p gt.liberties = true := by
      intro hd
      rw [hL]
      obtain ⟨ga, ha, _, hpa⟩ := hs a (by simp)
      exact Or.inr ⟨a, by simp, ga, ha, hpa hd⟩
    obtain ⟨l1, e3, hl1, hh1⟩ := removeLiberty_ok (dbg := dbg) (i := p) hcht.libs (by omega) hpt
    have hlt := Goban.ch_lt ht
    refine ⟨g2.setChain t { gt with liberties := l1 }, t, ?_, h2.rep.setLibs ht hl1, h2.size, h2.hash, ?_, h2.bdt, h2.bdo,
      ?_, ?_, ?_, h2.new⟩
    · unfold Goban.attach
      dsimp only
      rw [e1, ok_bind]
      dsimp only
      rw [e2, ok_bind]
      dsimp only
      rw [Goban.chainAt_ok ht, ok_bind, e3, ok_bind]
    · show (g2.chains.set _ _).length ≤ _
      rw [List.length_set]; exact h2.clen
    · refine ⟨{ gt with liberties := l1 }, by rw [Goban.ch_setChain hlt, if_pos rfl], hct, ?_⟩
      intro x
      show has x l1 = true ↔ _
      rw [hh1]
      by_cases hx : x = p
      · simp [hx]
      · rw [if_neg hx, hL]; simp [hx]
    · intro j hj hjn
      rw [Goban.ch_setChain hlt, if_neg hj]; exact h2.other j hj hjn
    · intro j hj hjn
      rw [Goban.ch_setChain hlt, if_neg hj]; exact h2.gone j hj hjn

/-- A full group table (65535 slots): no new group can be created. -/
theorem create_panic {dbg : Bool} {g : Goban} {p : Nat} {c : Color} {libs : List Nat} (h : Rep g) (hp : p < 361)
    (hl : ∀ i ∈ libs, i < 368) (hk : g.chains.length = 65535) : g.createChain dbg p c libs = panic := by
  obtain ⟨lib, e1, hlen, hm⟩ := set_fold_ok libs EMPTY_LIBERTIES Bits.empty_length hl
  have hpu : u16 p = p := u16_lt (by omega)
  let g2 : Goban := { g with nextStone := g.nextStone.set p p, chains := g.chains ++ [some (Group.newWithLiberties c p lib)] }
  have hch : g2.ch g.chains.length = some (Group.newWithLiberties c p lib) := by
    show ((g.chains ++ [some _])[g.chains.length]?).join = _
    simp
  have hit : (Group.newWithLiberties c p lib).iter dbg g2.nextStone = .ok [p] := by
    show Group.iterFrom dbg (g.nextStone.set p p) (u16 p) ((g.nextStone.set p p).length + 1) (u16 p) = _
    rw [hpu, List.length_set, h.nlen]
    exact Walk.iterFrom [] p 362 (getElem?_set_eq' (by rw [h.nlen]; exact hp)) (by simp) (by simp) (by simp)
  unfold Goban.createChain
  rw [e1, ok_bind, hpu]
  dsimp only
  rw [Goban.setNext_ok (by rw [h.nlen]; exact hp), ok_bind]
  unfold Groups.putFreeSpot
  dsimp only
  have : Goban.updateChainIndexesInBoard dbg g2 g.chains.length = panic := by
    unfold Goban.updateChainIndexesInBoard
    rw [Goban.chainAt_ok hch, ok_bind, hit, ok_bind]
    have : debugAssert dbg ([p].getLast?.map u16 == some (Group.newWithLiberties c p lib).last) = .ok () := by
      simp [debugAssert, Group.newWithLiberties]
    rw [this, ok_bind, List.foldlM_cons, hk, if_pos (by decide)]
    rfl
  show (Goban.updateChainIndexesInBoard dbg g2 g.chains.length >>= _) = _
  rw [this]; rfl

theorem attach_panic {dbg : Bool} {g : Goban} {p : Nat} {c : Color} {same libs : List Nat} (h0 : Rep g) (hp : p < 361)
    (hl : ∀ i ∈ libs, i < 368) (hk : g.chains.length = 65535) (hs : same.length ≠ 1) :
    g.attach dbg p c same libs = panic := by
  rcases same with _ | ⟨a, _ | ⟨b, rest⟩⟩
  · exact create_panic h0 hp hl hk
  · simp at hs
  · unfold Goban.attach
    dsimp only
    rw [create_panic h0 hp hl hk]; rfl

end Model
