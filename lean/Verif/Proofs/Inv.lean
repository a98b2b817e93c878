import Verif.Proofs.Merge
/-!
# The board invariant and `push`
-/

namespace Model
open Bits (has)

/-! ### Hash of a position -/

theorem zobrist_length : ZOBRIST.length = 722 := by decide +kernel

/-- The Zobrist key of what is shown at a cell; an empty cell contributes nothing. -/
def zkey (i : Nat) : Option Color → BitVec 64
  | none => 0
  | some c => BitVec.ofNat 64 (ZOBRIST.getD (i + 361 * (c.toNat - 1)) 0)

theorem indexZobrist_ok {i : Nat} {c : Color} (h : i < 361) : indexZobrist i c = .ok (zkey i (some c)) := by
  unfold indexZobrist zkey BOARD_SIZE
  have hlt : i + 19 * 19 * (c.toNat - 1) < ZOBRIST.length := by
    rw [zobrist_length]; cases c <;> simp [Color.toNat] <;> omega
  rw [List.getElem?_eq_getElem hlt]
  simp only [List.getD_eq_getElem?_getD, show 361 = 19 * 19 from rfl]
  rw [List.getElem?_eq_getElem hlt]; rfl

/-- XOR of the keys of the cells below `m`. -/
def hashFn (f : Nat → Option Color) : Nat → BitVec 64
  | 0 => 0
  | m + 1 => hashFn f m ^^^ zkey m (f m)

theorem hashFn_congr {f f' : Nat → Option Color} : ∀ {m : Nat}, (∀ i, i < m → f i = f' i) → hashFn f m = hashFn f' m
  | 0, _ => rfl
  | m + 1, h => by
    unfold hashFn
    rw [hashFn_congr (fun i hi => h i (by omega)), h m (by omega)]

theorem hashFn_update {f f' : Nat → Option Color} {p : Nat} (h : ∀ i, i ≠ p → f' i = f i) :
    ∀ {m : Nat}, p < m → hashFn f' m = hashFn f m ^^^ (zkey p (f p) ^^^ zkey p (f' p))
  | 0, hp => by omega
  | m + 1, hp => by
    unfold hashFn
    by_cases hm : p = m
    · subst hm
      rw [hashFn_congr (fun i hi => h i (by omega))]
      rw [BitVec.xor_assoc, ← BitVec.xor_assoc (zkey p (f p)), BitVec.xor_self, BitVec.zero_xor]
    · rw [hashFn_update h (by omega), h m (Ne.symm hm)]
      rw [BitVec.xor_assoc, BitVec.xor_comm _ (zkey m (f m)), ← BitVec.xor_assoc]

/-! ### Connectivity over neighbour lists -/

/-- `Conn n S i j`: a path of neighbours from `i` to `j` inside `S`. -/
inductive Conn (n : Dim) (S : Nat → Prop) : Nat → Nat → Prop
  | refl {i} : S i → Conn n S i i
  | step {i j k} : Conn n S i j → k ∈ nbrs n j → S k → Conn n S i k

theorem Conn.mono {n : Dim} {S T : Nat → Prop} (h : ∀ x, S x → T x) {i j : Nat} (hc : Conn n S i j) : Conn n T i j := by
  induction hc with
  | refl h' => exact .refl (h _ h')
  | step _ hk hs ih => exact .step ih hk (h _ hs)

theorem Conn.left {n : Dim} {S : Nat → Prop} {i j : Nat} (hc : Conn n S i j) : S i := by
  induction hc with
  | refl h => exact h
  | step _ _ _ ih => exact ih

theorem Conn.right {n : Dim} {S : Nat → Prop} {i j : Nat} (hc : Conn n S i j) : S j := by
  cases hc with
  | refl h => exact h
  | step _ _ h => exact h

theorem Conn.trans {n : Dim} {S : Nat → Prop} {i j k : Nat} (h1 : Conn n S i j) (h2 : Conn n S j k) : Conn n S i k := by
  induction h2 with
  | refl _ => exact h1
  | step _ hk hs ih => exact .step ih hk hs

theorem Conn.symm {n : Dim} {S : Nat → Prop} (hn : n.Good) (hS : ∀ x, S x → Ix n x) {i j : Nat} (h : Conn n S i j) :
    Conn n S j i := by
  induction h with
  | refl h => exact .refl h
  | step h hk hs ih =>
    have hj := hS _ h.right
    exact Conn.trans (.step (.refl hs) (nbrs_symm hn hj hk) h.right) ih

/-! ### The invariant -/

/-- Everything the data structure promises about a square board. Groups without liberties are allowed (a board being set
up by `push` may contain them). -/
structure Inv (n : Dim) (g : Goban) : Prop where
  rep : Rep g
  size : g.size = n.sz
  good : n.Good
  off : ∀ i k, g.bd i = some k → Ix n i
  closed : ∀ i j k, j ∈ nbrs n i → g.bd i = some k → g.col j = g.col i → g.bd j = some k
  conn : ∀ k i j, g.bd i = some k → g.bd j = some k → Conn n (fun x => g.bd x = some k) i j
  libs : ∀ k grp, g.ch k = some grp → ∀ x, has x grp.liberties = true ↔
    Ix n x ∧ g.bd x = none ∧ ∃ j ∈ nbrs n x, g.bd j = some k
  hash : g.zobristHash = hashFn g.col 361

theorem Inv.lt361 {n g} (h : Inv n g) {i : Nat} (hi : Ix n i) : i < 361 := hi.lt361 h.good

theorem col_of_bd {g : Goban} {i k : Nat} {grp : Group} (h : g.bd i = some k) (hk : g.ch k = some grp) :
    g.col i = some grp.color := by
  unfold Goban.col; rw [h]; simp [hk]

theorem col_none {g : Goban} {i : Nat} (h : g.bd i = none) : g.col i = none := by
  unfold Goban.col; rw [h]; rfl

theorem Rep.col_none_iff {g : Goban} (h : Rep g) {i : Nat} : g.col i = none ↔ g.bd i = none := by
  constructor
  · intro hc
    cases hb : g.bd i with
    | none => rfl
    | some k =>
      obtain ⟨grp, hg⟩ := h.live i k hb
      rw [col_of_bd hb hg] at hc; cases hc
  · exact col_none

theorem Rep.col_some_iff {g : Goban} (h : Rep g) {i : Nat} {c : Color} :
    g.col i = some c ↔ ∃ k grp, g.bd i = some k ∧ g.ch k = some grp ∧ grp.color = c := by
  constructor
  · intro hc
    cases hb : g.bd i with
    | none => rw [col_none hb] at hc; cases hc
    | some k =>
      obtain ⟨grp, hg⟩ := h.live i k hb
      rw [col_of_bd hb hg] at hc
      exact ⟨k, grp, rfl, hg, Option.some.inj hc⟩
  · rintro ⟨k, grp, h1, h2, rfl⟩
    exact col_of_bd h1 h2

theorem checkIntegrityRen_ok {dbg : Bool} {g : Goban} (h : Rep g) {k grp} (hk : g.ch k = some grp) :
    g.checkIntegrityRen dbg k = .ok () := by
  obtain ⟨l, hc⟩ := h.chain k grp hk
  unfold Goban.checkIntegrityRen Goban.iterStones
  rw [Goban.chainAt_ok hk, ok_bind, ok_bind, hc.iter h.nlen, ok_bind, hc.head, hc.last]
  have hlen := hc.length_le h.nlen
  rw [u16_lt (by omega), hc.num]
  simp [assertM]

theorem forM_ok {α} {l : List α} {f : α → M Unit} (h : ∀ a ∈ l, f a = .ok ()) : l.forM f = .ok () := by
  induction l with
  | nil => rfl
  | cons a l ih =>
    rw [List.forM_eq_forM, List.forM_cons, h a (by simp), ok_bind]
    exact ih (fun b hb => h b (List.mem_cons_of_mem _ hb))

theorem mem_iterWithIndex {g : Goban} {k : Nat} {grp : Group} :
    (k, grp) ∈ g.chains.iterWithIndex ↔ g.ch k = some grp := by
  unfold Groups.iterWithIndex Goban.ch
  rw [List.mem_filterMap]
  constructor
  · rintro ⟨⟨e, i⟩, hm, he⟩
    have hm' := List.mem_zipIdx_iff_getElem?.1 hm
    simp only [Option.map_eq_some_iff, Prod.mk.injEq] at he
    obtain ⟨a, ha, rfl, rfl⟩ := he
    simp only at hm' ha
    rw [hm', ha]; rfl
  · intro h
    rw [Option.join_eq_some_iff] at h
    exact ⟨(some grp, k), List.mem_zipIdx_iff_getElem?.2 h, rfl⟩

theorem checkIntegrityAll_ok {dbg : Bool} {g : Goban} (h : Rep g) : g.checkIntegrityAll dbg = .ok () := by
  unfold Goban.checkIntegrityAll
  apply forM_ok
  rintro ⟨k, grp⟩ hm
  exact checkIntegrityRen_ok h (mem_iterWithIndex.1 hm)

/-! ### The neighbour loop -/

/-- What the neighbour loop has collected after processing the neighbours `d`. -/
structure AroundOK (g : Goban) (c : Color) (d : List Nat) (a : Goban.Around) : Prop where
  snd : a.same.Nodup
  ond : a.opp.Nodup
  same : ∀ k, k ∈ a.same ↔ ∃ j ∈ d, g.bd j = some k ∧ g.col j = some c
  opp : ∀ k, k ∈ a.opp ↔ ∃ j ∈ d, g.bd j = some k ∧ g.col j = some c.opp
  libs : ∀ x, x ∈ a.libs ↔ x ∈ d ∧ g.bd x = none

theorem aroundStep_ok {g : Goban} {c : Color} {d : List Nat} {a : Goban.Around} {nb : Nat} (h : Rep g)
    (hnb : nb < 361) (ha : AroundOK g c d a) :
    ∃ a', g.aroundStep c a nb = .ok a' ∧ AroundOK g c (d ++ [nb]) a' := by
  unfold Goban.aroundStep
  rw [h.boardAt hnb, ok_bind]
  cases hb : g.bd nb with
  | none =>
    have hcn : g.col nb = none := col_none hb
    refine ⟨_, rfl, ha.snd, ha.ond, ?_, ?_, ?_⟩
    · intro k
      simp only [List.mem_append, List.mem_singleton, ha.same]
      constructor
      · rintro ⟨j, hj, h'⟩; exact ⟨j, Or.inl hj, h'⟩
      · rintro ⟨j, hj | rfl, h1, h2⟩
        · exact ⟨j, hj, h1, h2⟩
        · rw [hb] at h1; cases h1
    · intro k
      simp only [List.mem_append, List.mem_singleton, ha.opp]
      constructor
      · rintro ⟨j, hj, h'⟩; exact ⟨j, Or.inl hj, h'⟩
      · rintro ⟨j, hj | rfl, h1, h2⟩
        · exact ⟨j, hj, h1, h2⟩
        · rw [hb] at h1; cases h1
    · intro x
      simp only [List.mem_append, List.mem_singleton, ha.libs]
      constructor
      · rintro (⟨h1, h2⟩ | rfl)
        · exact ⟨Or.inl h1, h2⟩
        · exact ⟨Or.inr rfl, hb⟩
      · rintro ⟨h1 | rfl, h2⟩
        · exact Or.inl ⟨h1, h2⟩
        · exact Or.inr rfl
  | some k =>
    obtain ⟨grp, hg⟩ := h.live nb k hb
    have hcn := col_of_bd hb hg
    simp only
    rw [Goban.chainAt_ok hg, ok_bind]
    have hlibs : ∀ x, x ∈ a.libs ↔ x ∈ d ++ [nb] ∧ g.bd x = none := by
      intro x
      simp only [List.mem_append, List.mem_singleton, ha.libs]
      constructor
      · rintro ⟨h1, h2⟩; exact ⟨Or.inl h1, h2⟩
      · rintro ⟨h1 | rfl, h2⟩
        · exact ⟨h1, h2⟩
        · rw [hb] at h2; cases h2
    -- extending the description of `same`/`opp` by the neighbour
    have ext : ∀ (l l' : List Nat) (cc : Color), (∀ m, m ∈ l ↔ ∃ j ∈ d, g.bd j = some m ∧ g.col j = some cc) →
        (∀ m, m ∈ l' ↔ m ∈ l ∨ (grp.color = cc ∧ m = k)) →
        ∀ m, m ∈ l' ↔ ∃ j ∈ d ++ [nb], g.bd j = some m ∧ g.col j = some cc := by
      intro l l' cc hl hl' m
      rw [hl', hl]
      simp only [List.mem_append, List.mem_singleton]
      constructor
      · rintro (⟨j, hj, h'⟩ | ⟨h1, rfl⟩)
        · exact ⟨j, Or.inl hj, h'⟩
        · exact ⟨nb, Or.inr rfl, hb, by rw [hcn, h1]⟩
      · rintro ⟨j, hj | rfl, h1, h2⟩
        · exact Or.inl ⟨j, hj, h1, h2⟩
        · rw [hcn] at h2; rw [hb] at h1
          exact Or.inr ⟨Option.some.inj h2, (Option.some.inj h1).symm⟩
    have nd : ∀ (l : List Nat), l.Nodup → k ∉ l → (l ++ [k]).Nodup := by
      intro l hl hk
      rw [List.nodup_append]
      exact ⟨hl, by simp, by intro x hx y hy hxy; rw [List.mem_singleton] at hy; exact hk (hy ▸ hxy ▸ hx)⟩
    by_cases hc : grp.color = c
    · have hco : grp.color ≠ c.opp := by rw [hc]; exact Color.ne_opp c
      rw [if_pos hc]
      by_cases hm : k ∈ a.same
      · rw [if_pos (by simpa using hm)]
        refine ⟨a, rfl, ha.snd, ha.ond, ext _ _ c ha.same ?_, ext _ _ _ ha.opp ?_, hlibs⟩
        · intro m; constructor
          · exact Or.inl
          · rintro (h' | ⟨_, rfl⟩) <;> assumption
        · intro m; simp [hco]
      · rw [if_neg (by simpa using hm)]
        refine ⟨_, rfl, nd _ ha.snd hm, ha.ond, ext _ _ c ha.same ?_, ext _ _ _ ha.opp ?_, hlibs⟩
        · intro m; simp [hc]
        · intro m; simp [hco]
    · have hco : grp.color = c.opp := Color.eq_opp_of_ne hc
      rw [if_neg hc]
      by_cases hm : k ∈ a.opp
      · rw [if_pos (by simpa using hm)]
        refine ⟨a, rfl, ha.snd, ha.ond, ext _ _ c ha.same ?_, ext _ _ _ ha.opp ?_, hlibs⟩
        · intro m; simp [hc]
        · intro m; constructor
          · exact Or.inl
          · rintro (h' | ⟨_, rfl⟩) <;> assumption
      · rw [if_neg (by simpa using hm)]
        refine ⟨_, rfl, ha.snd, nd _ ha.ond hm, ext _ _ c ha.same ?_, ext _ _ _ ha.opp ?_, hlibs⟩
        · intro m; simp [hc]
        · intro m; simp [hco]

theorem around_fold {g : Goban} {c : Color} (h : Rep g) : ∀ (nbs d : List Nat) (a : Goban.Around),
    (∀ x ∈ nbs, x < 361) → AroundOK g c d a →
    ∃ a', nbs.foldlM (g.aroundStep c) a = .ok a' ∧ AroundOK g c (d ++ nbs) a' := by
  intro nbs
  induction nbs with
  | nil => intro d a _ ha; exact ⟨a, rfl, by simpa using ha⟩
  | cons x nbs ih =>
    intro d a hx ha
    obtain ⟨a1, e1, h1⟩ := aroundStep_ok h (hx x (by simp)) ha
    obtain ⟨a2, e2, h2⟩ := ih (d ++ [x]) a1 (fun y hy => hx y (List.mem_cons_of_mem _ hy)) h1
    exact ⟨a2, by rw [List.foldlM_cons, e1, ok_bind, e2], by simpa using h2⟩

theorem around_ok {g : Goban} {c : Color} (h : Rep g) {nbs : List Nat} (hn : ∀ x ∈ nbs, x < 361) :
    ∃ a, nbs.foldlM (g.aroundStep c) { same := [], opp := [], libs := [] } = .ok a ∧ AroundOK g c nbs a := by
  have := around_fold (c := c) h nbs [] { same := [], opp := [], libs := [] } hn
    ⟨by simp, by simp, by simp, by simp, by simp⟩
  simpa using this

/-! ### Taking a liberty from each opposing group -/

structure Took (g g' : Goban) (p : Nat) (done dead : List Nat) : Prop where
  rep : Rep g'
  bd : ∀ i, g'.bd i = g.bd i
  size : g'.size = g.size
  hash : g'.zobristHash = g.zobristHash
  clen : g'.chains.length = g.chains.length
  other : ∀ j, j ∉ done → g'.ch j = g.ch j
  taken : ∀ j ∈ done, ∀ gj, g.ch j = some gj → ∃ l', g'.ch j = some { gj with liberties := l' } ∧
    ∀ x, has x l' = if x = p then false else has x gj.liberties
  sub : dead.Sublist done
  dead : ∀ j ∈ done, j ∈ dead ↔ ∃ gj, g'.ch j = some gj ∧ gj.isDead = true

theorem takeLiberty_ok {dbg : Bool} {g g' : Goban} {p k : Nat} {done dead : List Nat} {gk : Group} (h : Took g g' p done dead)
    (hp : p < 368) (hk : g.ch k = some gk) (hnew : k ∉ done) (hhas : dbg = true → has p gk.liberties = true) :
    ∃ g'' dead', Goban.takeLiberty dbg p (g', dead) k = .ok (g'', dead') ∧ Took g g'' p (done ++ [k]) dead' := by
  have hk' : g'.ch k = some gk := (h.other k hnew).trans hk
  obtain ⟨l, hc⟩ := h.rep.chain k gk hk'
  obtain ⟨l1, e1, hl1, hh1⟩ := removeLiberty_ok (dbg := dbg) hc.libs hp hhas
  have hlt := Goban.ch_lt hk'
  refine ⟨g'.setChain k { gk with liberties := l1 },
    if ({ gk with liberties := l1 } : Group).isDead then dead ++ [k] else dead, ?_, h.rep.setLibs hk' hl1, h.bd, h.size,
    h.hash, ?_, ?_, ?_, ?_, ?_⟩
  · unfold Goban.takeLiberty
    dsimp only
    rw [Goban.chainAt_ok hk', ok_bind, e1, ok_bind]
  · show (g'.chains.set _ _).length = _
    rw [List.length_set, h.clen]
  · intro j hj
    rw [Goban.ch_setChain hlt, if_neg (fun h' => hj (by simp [h']))]
    exact h.other j (fun h' => hj (by simp [h']))
  · intro j hj gj hgj
    by_cases hjk : j = k
    · subst hjk
      rw [hk] at hgj; cases hgj
      exact ⟨l1, by rw [Goban.ch_setChain hlt, if_pos rfl], hh1⟩
    · have hjd : j ∈ done := by
        rcases List.mem_append.1 hj with h' | h'
        · exact h'
        · rw [List.mem_singleton] at h'; exact absurd h' hjk
      rw [Goban.ch_setChain hlt, if_neg hjk]
      exact h.taken j hjd gj hgj
  · split
    · exact h.sub.append (List.Sublist.refl _)
    · exact h.sub.trans (List.sublist_append_left _ _)
  · intro j hj
    rw [Goban.ch_setChain hlt]
    have hkd : k ∉ dead := fun h' => hnew (h.sub.subset h')
    by_cases hjk : j = k
    · subst hjk
      rw [if_pos rfl]
      split
      · rename_i hd; simp [hd]
      · rename_i hd; simp [hkd, hd]
    · have hjd : j ∈ done := by
        rcases List.mem_append.1 hj with h' | h'
        · exact h'
        · rw [List.mem_singleton] at h'; exact absurd h' hjk
      rw [if_neg hjk, ← h.dead j hjd]
      split
      · simp [hjk]
      · rfl

theorem take_fold {dbg : Bool} {g : Goban} {p : Nat} (hp : p < 368) : ∀ (todo done dead : List Nat) (g' : Goban),
    Took g g' p done dead → (done ++ todo).Nodup →
    (∀ k ∈ todo, ∃ gk, g.ch k = some gk ∧ (dbg = true → has p gk.liberties = true)) →
    ∃ g'' dead', todo.foldlM (Goban.takeLiberty dbg p) (g', dead) = .ok (g'', dead') ∧ Took g g'' p (done ++ todo) dead' := by
  intro todo
  induction todo with
  | nil => intro done dead g' h _ _; exact ⟨g', dead, rfl, by simpa using h⟩
  | cons k todo ih =>
    intro done dead g' h hnd hk
    obtain ⟨gk, h1, h2⟩ := hk k (by simp)
    have hnew : k ∉ done := by
      intro h'
      rw [List.nodup_append] at hnd
      exact hnd.2.2 k h' k (by simp) rfl
    obtain ⟨g1, d1, e1, t1⟩ := takeLiberty_ok (dbg := dbg) h hp h1 hnew h2
    obtain ⟨g2, d2, e2, t2⟩ := ih (done ++ [k]) d1 g1 t1 (by simpa using hnd) (fun k hk' => hk k (by simp [hk']))
    exact ⟨g2, d2, by rw [List.foldlM_cons, e1, ok_bind, e2], by simpa using t2⟩

theorem take_ok {dbg : Bool} {g : Goban} {p : Nat} {opp : List Nat} (h : Rep g) (hp : p < 368) (hnd : opp.Nodup)
    (hk : ∀ k ∈ opp, ∃ gk, g.ch k = some gk ∧ (dbg = true → has p gk.liberties = true)) :
    ∃ g' dead, opp.foldlM (Goban.takeLiberty dbg p) (g, []) = .ok (g', dead) ∧ Took g g' p opp dead := by
  have := take_fold (dbg := dbg) hp opp [] [] g
    ⟨h, fun _ => rfl, rfl, rfl, rfl, fun _ _ => rfl, by simp, List.Sublist.refl _, by simp⟩ (by simpa using hnd) hk
  simpa using this

/-! ### `push_wth_feedback` -/

structure PushSpec (n : Dim) (g : Goban) (p : Nat) (c : Color) (f : Goban.Feedback) : Prop where
  inv : Inv n f.goban
  col : ∀ i, f.goban.col i = if i = p then some c else g.col i
  added : f.goban.bd p = some f.added
  dnd : f.dead.Nodup
  dead : ∀ k, k ∈ f.dead ↔ ∃ grp, f.goban.ch k = some grp ∧ grp.color = c.opp ∧ grp.isDead = true ∧
    ∃ j ∈ nbrs n p, f.goban.bd j = some k
  clen : f.goban.chains.length ≤ g.chains.length + 1

theorem push_total_around {dbg : Bool} {n : Dim} {g : Goban} {pt : Coord} {c : Color} (h : Inv n g) (hpt : Spec.OnBoard n pt)
    (hb : g.bd (twoTo1dim n.sz pt) = none) :
    (∃ f, g.pushWthFeedback dbg pt c = .ok f ∧ PushSpec n g (twoTo1dim n.sz pt) c f) ∨
      (g.pushWthFeedback dbg pt c = panic ∧ g.chains.length = 65535 ∧
        ∃ a, AroundOK g c (nbrs n (twoTo1dim n.sz pt)) a ∧ a.same.length ≠ 1) := by
  generalize hpe : twoTo1dim n.sz pt = p at *
  have hpN : Ix n p := hpe ▸ twoTo1_lt h.good hpt
  have hp361 := h.lt361 hpN
  have hn := h.good
  have hr := h.rep
  have hnb361 : ∀ x ∈ nbrs n p, x < 361 := fun x hx => h.lt361 (nbrs_lt hn hpN hx)
  obtain ⟨a, ea, ha⟩ := around_ok (c := c) hr hnb361
  -- facts on collected groups
  have hsame : ∀ k ∈ a.same, ∃ gk, g.ch k = some gk ∧ gk.color = c ∧ has p gk.liberties = true := by
    intro k hk
    obtain ⟨j, hj, hbj, hcj⟩ := (ha.same k).1 hk
    obtain ⟨gk, hgk⟩ := hr.live j k hbj
    rw [col_of_bd hbj hgk] at hcj
    exact ⟨gk, hgk, Option.some.inj hcj, (h.libs k gk hgk p).2 ⟨hpN, hb, j, hj, hbj⟩⟩
  have hopp : ∀ k ∈ a.opp, ∃ gk, g.ch k = some gk ∧ gk.color = c.opp ∧ has p gk.liberties = true := by
    intro k hk
    obtain ⟨j, hj, hbj, hcj⟩ := (ha.opp k).1 hk
    obtain ⟨gk, hgk⟩ := hr.live j k hbj
    rw [col_of_bd hbj hgk] at hcj
    exact ⟨gk, hgk, Option.some.inj hcj, (h.libs k gk hgk p).2 ⟨hpN, hb, j, hj, hbj⟩⟩
  have hso : ∀ k, k ∈ a.same → k ∈ a.opp → False := by
    intro k h1 h2
    obtain ⟨gk, e1, e2, _⟩ := hsame k h1
    obtain ⟨gk', e1', e2', _⟩ := hopp k h2
    rw [e1] at e1'; cases e1'
    rw [e2] at e2'; exact Color.ne_opp c e2'
  obtain ⟨g1, dead, e1, ht⟩ := take_ok (dbg := dbg) hr (show p < 368 by omega) ha.ond
    (fun k hk => let ⟨gk, h1, _, h3⟩ := hopp k hk; ⟨gk, h1, fun _ => h3⟩)
  have hch1s : ∀ k ∈ a.same, g1.ch k = g.ch k := fun k hk => ht.other k (fun h' => hso k hk h')
  have hlibs368 : ∀ i ∈ a.libs, i < 368 := by
    intro i hi
    have := hnb361 i ((ha.libs i).1 hi).1
    omega
  have hplibs : p ∉ a.libs := fun h' => nbrs_ne hn hpN ((ha.libs p).1 h').1 rfl
  by_cases hk : ¬ (g.chains.length < 65535 ∨ a.same.length = 1)
  · rw [not_or] at hk
    have hfull : g.chains.length = 65535 := by have := hr.few; omega
    refine Or.inr ⟨?_, hfull, a, ha, hk.2⟩
    unfold Goban.pushWthFeedback
    rw [h.size, hpe]
    dsimp only
    rw [neighborsIdx_ok h.size hn hpN, ok_bind, ea, ok_bind, e1, ok_bind]
    dsimp only
    rw [attach_panic ht.rep hp361 hlibs368 (by rw [ht.clen]; exact hfull) hk.2]; rfl
  rw [Classical.not_not] at hk
  refine Or.inl ?_
  obtain ⟨g2, t, e2, hA⟩ := attach_att (dbg := dbg) (c := c) (same := a.same) (libs := a.libs) ht.rep hp361
    (by rw [ht.bd, hb]) hlibs368 hplibs (by rw [ht.clen]; exact hk) ha.snd
    (fun k hk => let ⟨gk, h1, h2, h3⟩ := hsame k hk; ⟨gk, (hch1s k hk).trans h1, h2, fun _ => h3⟩)
  -- board of g2
  have hbdt : ∀ i, (i = p ∨ ∃ k ∈ a.same, g.bd i = some k) → g2.bd i = some t := by
    intro i hi; apply hA.bdt
    rcases hi with h' | ⟨k, h1, h2⟩
    · exact Or.inl h'
    · exact Or.inr ⟨k, h1, by rw [ht.bd]; exact h2⟩
  have hbdo : ∀ i, i ≠ p → (∀ k ∈ a.same, g.bd i ≠ some k) → g2.bd i = g.bd i := by
    intro i h1 h2
    rw [hA.bdo i h1 (fun k hk => by rw [ht.bd]; exact h2 k hk), ht.bd]
  have hsplit : ∀ i, (i = p ∨ ∃ k ∈ a.same, g.bd i = some k) ∨ (i ≠ p ∧ ∀ k ∈ a.same, g.bd i ≠ some k) := by
    intro i
    by_cases hi : i = p ∨ ∃ k ∈ a.same, g.bd i = some k
    · exact Or.inl hi
    · rw [not_or] at hi
      exact Or.inr ⟨hi.1, fun k hk hk' => hi.2 ⟨k, hk, hk'⟩⟩
  have htnew : ∀ i, (∀ k ∈ a.same, g.bd i ≠ some k) → g.bd i ≠ some t := by
    intro i hi hbt
    rcases hA.new with h' | h'
    · exact hi t h' hbt
    · obtain ⟨gg, hgg⟩ := hr.live i t hbt
      have := Goban.ch_lt hgg
      rw [ht.clen] at h'; omega
  have hbt : ∀ i, g2.bd i = some t ↔ (i = p ∨ ∃ k ∈ a.same, g.bd i = some k) := by
    intro i
    refine ⟨fun h' => ?_, hbdt i⟩
    rcases hsplit i with hi | ⟨hi1, hi2⟩
    · exact hi
    · rw [hbdo i hi1 hi2] at h'; exact absurd h' (htnew i hi2)
  have hbk : ∀ i k, k ≠ t → (g2.bd i = some k ↔ g.bd i = some k ∧ k ∉ a.same) := by
    intro i k hkt
    rcases hsplit i with hi | ⟨hi1, hi2⟩
    · rw [hbdt i hi]
      constructor
      · intro h'; exact absurd (Option.some.inj h').symm hkt
      · rintro ⟨h1, h2⟩
        rcases hi with rfl | ⟨k', h3, h4⟩
        · rw [hb] at h1; cases h1
        · rw [h1] at h4; exact absurd (Option.some.inj h4 ▸ h3) h2
    · rw [hbdo i hi1 hi2]
      exact ⟨fun h' => ⟨h', fun h'' => hi2 k h'' h'⟩, fun h' => h'.1⟩
  have hbn : ∀ i, g2.bd i = none ↔ i ≠ p ∧ g.bd i = none := by
    intro i
    rcases hsplit i with hi | ⟨hi1, hi2⟩
    · rw [hbdt i hi]
      constructor
      · intro h'; cases h'
      · rintro ⟨h1, h2⟩
        rcases hi with h' | ⟨k, _, h'⟩
        · exact absurd h' h1
        · rw [h2] at h'; cases h'
    · rw [hbdo i hi1 hi2]; simp [hi1]
  obtain ⟨gt, hgt, hct, hLt⟩ := hA.added
  -- groups of g2 other than t
  have hch2 : ∀ k, k ≠ t → ∀ gk, g2.ch k = some gk → k ∉ a.same ∧ g1.ch k = some gk := by
    intro k hkt gk hgk
    by_cases hks : k ∈ a.same
    · rw [hA.gone k hkt hks] at hgk; cases hgk
    · exact ⟨hks, by rw [← hA.other k hkt hks]; exact hgk⟩
  have hch1col : ∀ k g0, g.ch k = some g0 → ∃ gk, g1.ch k = some gk ∧ gk.color = g0.color := by
    intro k g0 hg0
    by_cases hko : k ∈ a.opp
    · obtain ⟨l', hl', _⟩ := ht.taken k hko g0 hg0
      exact ⟨_, hl', rfl⟩
    · exact ⟨g0, by rw [ht.other k hko]; exact hg0, rfl⟩
  have hcol : ∀ i, g2.col i = if i = p then some c else g.col i := by
    intro i
    rcases hsplit i with hi | ⟨hi1, hi2⟩
    · rw [col_of_bd (hbdt i hi) hgt, hct]
      rcases hi with rfl | ⟨k, hk, hbk⟩
      · rw [if_pos rfl]
      · obtain ⟨gk, h1, h2, _⟩ := hsame k hk
        rw [col_of_bd hbk h1, h2]; simp
    · rw [if_neg hi1]
      have hbi := hbdo i hi1 hi2
      cases hgi : g.bd i with
      | none => rw [col_none hgi, col_none (hbi.trans hgi)]
      | some k =>
        obtain ⟨g0, hg0⟩ := hr.live i k hgi
        have hkt : k ≠ t := fun h' => htnew i hi2 (h' ▸ hgi)
        have hks : k ∉ a.same := fun h' => hi2 k h' hgi
        obtain ⟨gk, h1, h2⟩ := hch1col k g0 hg0
        rw [col_of_bd hgi hg0, col_of_bd (hbi.trans hgi) ((hA.other k hkt hks).trans h1), h2]
  have hp2 : g2.bd p = some t := hbdt p (Or.inl rfl)
  -- hash
  have hz := indexZobrist_ok (c := c) hp361
  let g3 : Goban := { g2 with zobristHash := g2.zobristHash ^^^ zkey p (some c) }
  have hbd3 : ∀ i, g3.bd i = g2.bd i := fun _ => rfl
  have hch3 : ∀ k, g3.ch k = g2.ch k := fun _ => rfl
  have hcol3 : ∀ i, g3.col i = if i = p then some c else g.col i := hcol
  have hrep3 : Rep g3 := by
    have r := hA.rep
    refine ⟨r.blen, r.nlen, ?_, r.live, r.few⟩
    intro k grp hg
    obtain ⟨l, hc⟩ := r.chain k grp hg
    exact ⟨l, hc.nodup, hc.walk, hc.head, hc.last, hc.num, hc.min, hc.libs, hc.mem⟩
  have hinv : Inv n g3 := by
    refine ⟨hrep3, (hA.size.trans ht.size).trans h.size, hn, ?_, ?_, ?_, ?_, ?_⟩
    · intro i k hik
      rcases hsplit i with hi | ⟨hi1, hi2⟩
      · rcases hi with rfl | ⟨k', _, h'⟩
        · exact hpN
        · exact h.off i k' h'
      · rw [hbd3, hbdo i hi1 hi2] at hik; exact h.off i k hik
    · -- closed
      intro i j k hj hik hcji
      rw [hcol3, hcol3] at hcji
      rw [hbd3] at hik ⊢
      rcases hsplit i with hi | ⟨hi1, hi2⟩
      · have hkt : k = t := by rw [hbdt i hi] at hik; exact (Option.some.inj hik).symm
        subst hkt
        by_cases hjp : j = p
        · rw [hjp]; exact hp2
        · rw [if_neg hjp] at hcji
          rcases hi with rfl | ⟨k', hk', hbk'⟩
          · rw [if_pos rfl] at hcji
            obtain ⟨k', gk', h1, h2, h3⟩ := hr.col_some_iff.1 hcji
            exact hbdt j (Or.inr ⟨k', (ha.same k').2 ⟨j, hj, h1, hcji⟩, h1⟩)
          · have hip : i ≠ p := fun h' => by rw [h', hb] at hbk'; cases hbk'
            rw [if_neg hip] at hcji
            exact hbdt j (Or.inr ⟨k', hk', h.closed i j k' hj hbk' hcji⟩)
      · rw [hbdo i hi1 hi2] at hik
        rw [if_neg hi1] at hcji
        have hiN := h.off i k hik
        by_cases hjp : j = p
        · rw [if_pos hjp] at hcji
          exfalso
          apply hi2 k _ hik
          rw [ha.same]
          exact ⟨i, by rw [← hjp]; exact nbrs_symm hn hiN hj, hik, hcji.symm⟩
        · rw [if_neg hjp] at hcji
          have hbj := h.closed i j k hj hik hcji
          have hks : k ∉ a.same := fun h' => hi2 k h' hik
          have hkt : k ≠ t := fun h' => htnew i hi2 (h' ▸ hik)
          exact (hbk j k hkt).2 ⟨hbj, hks⟩
    · -- conn
      intro k i j hi hj
      rw [hbd3] at hi hj
      show Conn n (fun x => g2.bd x = some k) i j
      by_cases hkt : k = t
      · subst hkt
        have hto : ∀ x, g2.bd x = some k → Conn n (fun x => g2.bd x = some k) x p := by
          intro x hx
          rcases (hbt x).1 hx with rfl | ⟨k', hk', hbx⟩
          · exact .refl hx
          · obtain ⟨y, hy, hby, _⟩ := (ha.same k').1 hk'
            have hc := (h.conn k' x y hbx hby).mono (T := fun x => g2.bd x = some k)
              (fun z hz => hbdt z (Or.inr ⟨k', hk', hz⟩))
            exact .step hc (nbrs_symm hn hpN hy) hp2
        have hsm : ∀ x, g2.bd x = some k → Ix n x := by
          intro x hx
          rcases (hbt x).1 hx with rfl | ⟨k', _, hbx⟩
          · exact hpN
          · exact h.off x k' hbx
        exact (hto i hi).trans ((hto j hj).symm hn hsm)
      · obtain ⟨hi', hks⟩ := (hbk i k hkt).1 hi
        obtain ⟨hj', _⟩ := (hbk j k hkt).1 hj
        exact (h.conn k i j hi' hj').mono (fun z hz => (hbk z k hkt).2 ⟨hz, hks⟩)
    · -- libs
      intro k grp hgrp x
      rw [hch3] at hgrp
      show _ ↔ Ix n x ∧ g2.bd x = none ∧ ∃ j ∈ nbrs n x, g2.bd j = some k
      rw [hbn]
      by_cases hkt : k = t
      · subst hkt
        rw [hgt] at hgrp; cases hgrp
        rw [hLt]
        have hLO : LibOf g1 a.same x ↔ ∃ k' ∈ a.same, Ix n x ∧ g.bd x = none ∧ ∃ j ∈ nbrs n x, g.bd j = some k' := by
          constructor
          · rintro ⟨k', hk', gk', h1, h2⟩
            rw [hch1s k' hk'] at h1
            exact ⟨k', hk', (h.libs k' gk' h1 x).1 h2⟩
          · rintro ⟨k', hk', h'⟩
            obtain ⟨gk', h1, _⟩ := hsame k' hk'
            exact ⟨k', hk', gk', (hch1s k' hk').trans h1, (h.libs k' gk' h1 x).2 h'⟩
        rw [hLO]
        constructor
        · rintro ⟨hxp, h' | ⟨k', hk', hx, hbx, j, hj, hbj⟩⟩
          · obtain ⟨h1, h2⟩ := (ha.libs x).1 h'
            exact ⟨nbrs_lt hn hpN h1, ⟨hxp, h2⟩, p, nbrs_symm hn hpN h1, hp2⟩
          · exact ⟨hx, ⟨hxp, hbx⟩, j, hj, hbdt j (Or.inr ⟨k', hk', hbj⟩)⟩
        · rintro ⟨hx, ⟨hxp, hbx⟩, j, hj, hbj⟩
          refine ⟨hxp, ?_⟩
          rcases (hbt j).1 hbj with rfl | ⟨k', hk', hbj'⟩
          · exact Or.inl ((ha.libs x).2 ⟨nbrs_symm hn hx hj, hbx⟩)
          · exact Or.inr ⟨k', hk', hx, hbx, j, hj, hbj'⟩
      · obtain ⟨hks, hg1⟩ := hch2 k hkt grp hgrp
        have hbk' : (∃ j ∈ nbrs n x, g2.bd j = some k) ↔ ∃ j ∈ nbrs n x, g.bd j = some k := by
          constructor
          · rintro ⟨j, h1, h2⟩; exact ⟨j, h1, ((hbk j k hkt).1 h2).1⟩
          · rintro ⟨j, h1, h2⟩; exact ⟨j, h1, (hbk j k hkt).2 ⟨h2, hks⟩⟩
        rw [hbk']
        by_cases hko : k ∈ a.opp
        · obtain ⟨g0, hg0, _⟩ := hopp k hko
          obtain ⟨l', hl', hh'⟩ := ht.taken k hko g0 hg0
          rw [hg1] at hl'; cases hl'
          show has x l' = true ↔ _
          rw [hh']
          by_cases hxp : x = p
          · simp [hxp]
          · rw [if_neg hxp, h.libs k g0 hg0 x]; simp [hxp]
        · rw [ht.other k hko] at hg1
          rw [h.libs k grp hg1 x]
          constructor
          · rintro ⟨hx, hbx, j, hj, hbj⟩
            refine ⟨hx, ⟨?_, hbx⟩, j, hj, hbj⟩
            rintro rfl
            -- group k would have been collected
            have hc := col_of_bd hbj hg1
            by_cases hcc : grp.color = c
            · exact hks ((ha.same k).2 ⟨j, hj, hbj, by rw [hc, hcc]⟩)
            · exact hko ((ha.opp k).2 ⟨j, hj, hbj, by rw [hc, Color.eq_opp_of_ne hcc]⟩)
          · rintro ⟨hx, ⟨_, hbx⟩, h'⟩; exact ⟨hx, hbx, h'⟩
    · -- hash
      show g2.zobristHash ^^^ zkey p (some c) = hashFn g3.col 361
      have hcp : g.col p = none := col_none hb
      rw [hashFn_update (f := g.col) (f' := g3.col) (p := p) (fun i hi => by rw [hcol3, if_neg hi]) hp361, hcol3 p,
        if_pos rfl, hcp, ← h.hash]
      rw [hA.hash, ht.hash]
      show _ = _ ^^^ (0#64 ^^^ _)
      rw [BitVec.zero_xor]
  refine ⟨{ dead := dead, added := t, goban := g3 }, ?_, hinv, hcol3, hp2, ?_, ?_, ?_⟩
  · unfold Goban.pushWthFeedback
    rw [h.size, hpe]
    dsimp only
    rw [neighborsIdx_ok h.size hn hpN, ok_bind, ea, ok_bind, e1, ok_bind]
    dsimp only
    rw [e2, ok_bind]
    dsimp only
    rw [hz, ok_bind]
    cases dbg
    · rfl
    · show (if true = true then Goban.checkIntegrityAll true g3 >>= _ else _) = _
      rw [if_pos rfl, checkIntegrityAll_ok hrep3]; rfl
  · exact ht.sub.nodup ha.ond
  · intro k
    show k ∈ dead ↔ ∃ grp, g2.ch k = some grp ∧ _ ∧ _ ∧ ∃ j ∈ nbrs n p, g2.bd j = some k
    have hoppt : ∀ k, k ∈ a.opp → k ≠ t ∧ k ∉ a.same := by
      intro k hko
      have hks : k ∉ a.same := fun h' => hso k h' hko
      refine ⟨?_, hks⟩
      rintro rfl
      rcases hA.new with h' | h'
      · exact hks h'
      · obtain ⟨gk, h1, _⟩ := hopp k hko
        have := Goban.ch_lt h1
        rw [ht.clen] at h'; omega
    constructor
    · intro hkd
      have hko := ht.sub.subset hkd
      obtain ⟨hkt, hks⟩ := hoppt k hko
      obtain ⟨gk, h1, h2⟩ := (ht.dead k hko).1 hkd
      obtain ⟨g0, h3, h4, _⟩ := hopp k hko
      obtain ⟨l', h5, _⟩ := ht.taken k hko g0 h3
      rw [h1] at h5; cases h5
      obtain ⟨j, hj, hbj, _⟩ := (ha.opp k).1 hko
      exact ⟨_, (hA.other k hkt hks).trans h1, h4, h2, j, hj, (hbk j k hkt).2 ⟨hbj, hks⟩⟩
    · rintro ⟨grp, h1, h2, h3, j, hj, hbj⟩
      have hkt : k ≠ t := by
        rintro rfl
        rw [hgt] at h1; cases h1
        rw [hct] at h2; exact Color.ne_opp c h2
      obtain ⟨hks, hg1⟩ := hch2 k hkt grp h1
      obtain ⟨hbj', _⟩ := (hbk j k hkt).1 hbj
      have hko : k ∈ a.opp := by
        refine (ha.opp k).2 ⟨j, hj, hbj', ?_⟩
        obtain ⟨g0, hg0⟩ := hr.live j k hbj'
        obtain ⟨gk, h4, h5⟩ := hch1col k g0 hg0
        rw [hg1] at h4; cases h4
        rw [col_of_bd hbj' hg0, ← h5, h2]
      exact (ht.dead k hko).2 ⟨grp, hg1, h3⟩
  · show g2.chains.length ≤ _
    have := hA.clen
    rw [ht.clen] at this; exact this

theorem push_total {dbg : Bool} {n : Dim} {g : Goban} {pt : Coord} {c : Color} (h : Inv n g) (hpt : Spec.OnBoard n pt)
    (hb : g.bd (twoTo1dim n.sz pt) = none) :
    (∃ f, g.pushWthFeedback dbg pt c = .ok f ∧ PushSpec n g (twoTo1dim n.sz pt) c f) ∨
      (g.pushWthFeedback dbg pt c = panic ∧ g.chains.length = 65535) := by
  rcases push_total_around (dbg := dbg) (c := c) h hpt hb with h' | ⟨h1, h2, _⟩
  · exact Or.inl h'
  · exact Or.inr ⟨h1, h2⟩

theorem push_spec {dbg : Bool} {n : Dim} {g : Goban} {pt : Coord} {c : Color} (h : Inv n g) (hpt : Spec.OnBoard n pt)
    (hb : g.bd (twoTo1dim n.sz pt) = none) (hk : g.chains.length < 65535) :
    ∃ f, g.pushWthFeedback dbg pt c = .ok f ∧ PushSpec n g (twoTo1dim n.sz pt) c f := by
  rcases push_total (dbg := dbg) (c := c) h hpt hb with h' | ⟨_, h'⟩
  · exact h'
  · omega

end Model
