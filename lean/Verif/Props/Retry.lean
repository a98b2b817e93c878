import Verif.Props.Unwind
/-!
# C131: the same move again after a caught panic
-/

namespace Model
open Spec (OnBoard Adj Joins)
open Bits (has)

variable {dbg : Bool} {n : Dim}

/-- The neighbour loop around a point with no stones beside it. -/
theorem around_lone {b : Goban} {c : Color} : ∀ {l : List Nat} {a : Goban.Around}, (∀ i ∈ l, b.boardAt i = .ok none) →
    l.foldlM (b.aroundStep c) a = .ok { a with libs := a.libs ++ l }
  | [], a, _ => by simp
  | i :: l, a, h => by
    rw [List.foldlM_cons]
    have : b.aroundStep c a i = .ok { a with libs := a.libs ++ [i] } := by
      unfold Goban.aroundStep
      rw [h i (by simp)]; rfl
    rw [this, ok_bind, around_lone (fun j hj => h j (by simp [hj]))]
    simp

/-- A walk of one stone. -/
theorem one_iter {nx : List Nat} {q : Nat} {c : Color} {lib : Liberties} (hn : nx.length = 361) (hq : q < 361) (h : nx[q]? = some q) :
    (Group.newWithLiberties c q lib).iter dbg nx = .ok [q] := by
  have hqu : u16 q = q := u16_lt (by omega)
  show Group.iterFrom dbg nx (u16 q) (nx.length + 1) (u16 q) = _
  rw [hqu, hn]
  exact Walk.iterFrom [] q 362 h (by simp) (by simp) (by simp)

theorem one_integrity {b : Goban} {k q : Nat} {c : Color} {lib : Liberties} (hk : b.ch k = some (Group.newWithLiberties c q lib))
    (hn : b.nextStone.length = 361) (hq : q < 361) (h : b.nextStone[q]? = some q) : b.checkIntegrityRen dbg k = .ok () := by
  have hqu : u16 q = q := u16_lt (by omega)
  unfold Goban.checkIntegrityRen Goban.iterStones
  rw [Goban.chainAt_ok hk, ok_bind, ok_bind, one_iter hn hq h, ok_bind]
  simp [assertM, Group.newWithLiberties, hqu, show u16 1 = 1 from rfl]

/-- The board after another stone on the board that a panic left: its index, 65,536, is 0 in the sixteen bits of the board. -/
def wrapBoard (g : Goban) (p q : Nat) (c d : Color) (lib lib' : Liberties) : Goban :=
  { g with nextStone := (g.nextStone.set p p).set q q, board := g.board.set q (some 0),
           chains := (g.chains ++ [some (Group.newWithLiberties c p lib)]) ++ [some (Group.newWithLiberties d q lib')],
           zobristHash := g.zobristHash ^^^ zkey q (some d) }

theorem ghost_push {g : Goban} (h : Rep g) (hs : g.size = n.sz) (hg : n.Good) (hfull : g.chains.length = 65535) {p : Nat} {pt : Coord} {c d : Color}
    {lib : Liberties} (hp : p < 361) (hbp : g.bd p = none) (hq : OnBoard n pt) (hbq : g.bd (twoTo1dim n.sz pt) = none)
    (hnb : ∀ i ∈ nbrs n (twoTo1dim n.sz pt), g.bd i = none) :
    ∃ lib', lib'.length = 46 ∧ (∀ x, has x lib' = true ↔ x ∈ nbrs n (twoTo1dim n.sz pt)) ∧
      (ghostBoard g p c lib).pushWthFeedback dbg pt d =
      .ok { dead := [], added := 65536, goban := wrapBoard g p (twoTo1dim n.sz pt) c d lib lib' } := by
  have hqN : Ix n (twoTo1dim n.sz pt) := twoTo1_lt hg hq
  have hq361 := hqN.lt361 hg
  have hn361 : ∀ i ∈ nbrs n (twoTo1dim n.sz pt), i < 361 := fun i hi => (nbrs_lt hg hqN hi).lt361 hg
  generalize hqe : twoTo1dim n.sz pt = q at *
  obtain ⟨lib', e1, hlen, hm⟩ := set_fold_ok (nbrs n q) EMPTY_LIBERTIES Bits.empty_length (fun i hi => by have := hn361 i hi; omega)
  refine ⟨lib', hlen, fun x => ?_, ?_⟩
  · rw [hm]
    have : has x EMPTY_LIBERTIES = false := Bits.has_empty x
    simp [this]
  have hqu : u16 q = q := u16_lt (by omega)
  let b0 := ghostBoard g p c lib
  have hs0 : b0.size = n.sz := hs
  have hb0 : ∀ i, i < 361 → g.bd i = none → b0.boardAt i = .ok none := by
    intro i hi hbi
    rw [show b0.boardAt i = g.boardAt i from rfl, h.boardAt hi, hbi]
  have hnl : b0.nextStone.length = 361 := by
    show (g.nextStone.set p p).length = 361
    rw [List.length_set, h.nlen]
  have hcl : b0.chains.length = 65536 := by
    show (g.chains ++ [_]).length = 65536
    rw [List.length_append, hfull]; rfl
  let b1 : Goban := { b0 with nextStone := b0.nextStone.set q q, chains := b0.chains ++ [some (Group.newWithLiberties d q lib')] }
  let b2 : Goban := { b1 with board := g.board.set q (some 0) }
  have hch1 : b1.ch 65536 = some (Group.newWithLiberties d q lib') := by
    show ((b0.chains ++ [some _])[65536]?).join = _
    rw [← hcl]; simp
  have hnq : b1.nextStone[q]? = some q := getElem?_set_eq' (by rw [hnl]; exact hq361)
  have hnl1 : b1.nextStone.length = 361 := by
    show (b0.nextStone.set q q).length = 361
    rw [List.length_set, hnl]
  have hup : b1.updateChainIndexesInBoard dbg 65536 = .ok b2 := by
    unfold Goban.updateChainIndexesInBoard
    rw [Goban.chainAt_ok hch1, ok_bind, one_iter hnl1 hq361 hnq, ok_bind]
    have : debugAssert dbg ([q].getLast?.map u16 == some (Group.newWithLiberties d q lib').last) = .ok () := by
      simp [debugAssert, Group.newWithLiberties]
    rw [this, ok_bind, List.foldlM_cons, if_neg (by decide), show u16 65536 = 0 from rfl,
      Goban.setBoard_ok (by rw [show b1.board = g.board from rfl, h.blen]; exact hq361)]
    rfl
  have hcr : b0.createChain dbg q d (nbrs n q) = .ok (65536, b2) := by
    unfold Goban.createChain
    rw [e1, ok_bind, hqu]
    dsimp only
    rw [Goban.setNext_ok (by rw [hnl]; exact hq361), ok_bind]
    unfold Groups.putFreeSpot
    dsimp only
    show (Goban.updateChainIndexesInBoard dbg b1 b0.chains.length >>= fun g => .ok (b0.chains.length, g)) = _
    rw [hcl, hup]; rfl
  have hint : (wrapBoard g p q c d lib lib').checkIntegrityAll true = .ok () := by
    unfold Goban.checkIntegrityAll
    apply forM_ok
    rintro ⟨k, grp⟩ hmem
    have hk := mem_iterWithIndex.1 hmem
    have hch : (wrapBoard g p q c d lib lib').ch k = (((g.chains ++ [some (Group.newWithLiberties c p lib)]) ++
      [some (Group.newWithLiberties d q lib')])[k]?).join := rfl
    have hnw : (wrapBoard g p q c d lib lib').nextStone.length = 361 := hnl1
    show (wrapBoard g p q c d lib lib').checkIntegrityRen true k = .ok ()
    rcases Nat.lt_trichotomy k 65535 with hk1 | hk1 | hk1
    · let X : Goban := { g with nextStone := (g.nextStone.set p p).set q q }
      have hX : Rep X := by
        refine ⟨h.blen, hnw, fun j gj hj => ?_, h.live, h.few⟩
        obtain ⟨l, hl⟩ := h.chain j gj hj
        refine ⟨l, hl.nodup, hl.walk.congr (fun a ha => ?_), hl.head, hl.last, hl.num, hl.min, hl.libs, hl.mem⟩
        have hba := (hl.mem a).2 ha
        have h1 : p ≠ a := by rintro rfl; rw [hbp] at hba; cases hba
        have h2 : q ≠ a := by rintro rfl; rw [hbq] at hba; cases hba
        show ((g.nextStone.set p p).set q q)[a]? = _
        rw [List.getElem?_set_ne h2, List.getElem?_set_ne h1]
      have hXk : X.ch k = some grp := by
        rw [hch, List.getElem?_append_left (by rw [List.length_append, hfull]; simp; omega), List.getElem?_append_left (by omega)] at hk
        exact hk
      have := checkIntegrityRen_ok (dbg := true) hX hXk
      unfold Goban.checkIntegrityRen Goban.iterStones at this ⊢
      rw [Goban.chainAt_ok hk]
      rw [Goban.chainAt_ok hXk] at this
      exact this
    · subst hk1
      have hgk : (wrapBoard g p q c d lib lib').ch 65535 = some (Group.newWithLiberties c p lib) := by
        rw [hch, List.getElem?_append_left (by rw [List.length_append, hfull]; simp), List.getElem?_append_right (by omega), hfull]
        rfl
      refine one_integrity hgk hnw hp ?_
      show ((g.nextStone.set p p).set q q)[p]? = _
      by_cases hpq : q = p
      · rw [hpq]; exact getElem?_set_eq' (by rw [List.length_set, h.nlen]; exact hp)
      · rw [List.getElem?_set_ne hpq]
        exact getElem?_set_eq' (by rw [h.nlen]; exact hp)
    · have hlt := Goban.ch_lt hk
      have hwl : (wrapBoard g p q c d lib lib').chains.length = 65537 := by
        show ((g.chains ++ [_]) ++ [_]).length = _
        rw [List.length_append, List.length_append, hfull]; rfl
      obtain rfl : k = 65536 := by omega
      exact one_integrity (c := d) (lib := lib') hch1 hnw hq361 hnq
  unfold Goban.pushWthFeedback
  show (do
    let nbs ← b0.neighborsIdx dbg (twoTo1dim b0.size pt)
    let a ← nbs.foldlM (b0.aroundStep d) { same := [], opp := [], libs := [] }
    let (g, dead) ← a.opp.foldlM (Goban.takeLiberty dbg (twoTo1dim b0.size pt)) (b0, [])
    let (added, g) ← g.attach dbg (twoTo1dim b0.size pt) d a.same a.libs
    let z ← indexZobrist (twoTo1dim b0.size pt) d
    let g := { g with zobristHash := g.zobristHash ^^^ z }
    if dbg then g.checkIntegrityAll dbg
    .ok { dead := dead, added := added, goban := g } : M Goban.Feedback) = _
  rw [hs0, hqe, neighborsIdx_ok hs0 hg hqN, ok_bind, around_lone (fun i hi => hb0 i (hn361 i hi) (hnb i hi)), ok_bind]
  show (do
    let (added, g) ← b0.createChain dbg q d ([] ++ nbrs n q)
    let z ← indexZobrist q d
    let g := { g with zobristHash := g.zobristHash ^^^ z }
    if dbg then g.checkIntegrityAll dbg
    .ok { dead := [], added := added, goban := g } : M Goban.Feedback) = _
  rw [List.nil_append, hcr, ok_bind]
  dsimp only
  rw [indexZobrist_ok hq361, ok_bind]
  cases dbg with
  | false => rfl
  | true =>
    show ((wrapBoard g p q c d lib lib').checkIntegrityAll true >>= _) = _
    rw [hint]; rfl

theorem wrap_getColor {g : Goban} {b : Goban} (hI : Inv n b) {p q s : Coord} {c d : Color} {lib lib' : Liberties} {opp dead : List Nat}
    (ht : Took b g (twoTo1dim n.sz p) opp dead) (hfull : b.chains.length = 65535) (hopp : ∀ k ∈ opp, ∃ grp, b.ch k = some grp)
    (hq : OnBoard n q) (hs : OnBoard n s) :
    (wrapBoard g (twoTo1dim n.sz p) (twoTo1dim n.sz q) c d lib lib').getColor s =
      if s = q then b.chains.chainAt 0 >>= fun grp => .ok (some grp.color) else b.getColor s := by
  have hs361 := hI.lt361 (twoTo1_lt hI.good hs)
  have hq361 := hI.lt361 (twoTo1_lt hI.good hq)
  have hcol : ∀ k, (g.ch k).map Group.color = (b.ch k).map Group.color := by
    intro k
    by_cases hk : k ∈ opp
    · obtain ⟨grp, hgrp⟩ := hopp k hk
      obtain ⟨l', h1, _⟩ := ht.taken k hk grp hgrp
      rw [h1, hgrp]; rfl
    · rw [ht.other k hk]
  have hat : ∀ (x : Goban) k, (x.chains.chainAt k >>= fun grp => (.ok (some grp.color) : M MaybeColor)) =
      match (x.ch k).map Group.color with
      | some c => .ok (some c)
      | none => panic := by
    intro x k
    unfold Groups.chainAt Goban.ch
    cases x.chains[k]? with
    | none => rfl
    | some o => cases o <;> rfl
  have hw : ∀ k, k < 65535 → (wrapBoard g (twoTo1dim n.sz p) (twoTo1dim n.sz q) c d lib lib').ch k = g.ch k := by
    intro k hk
    have hgl : g.chains.length = 65535 := ht.clen.trans hfull
    unfold Goban.ch
    show (((g.chains ++ [_]) ++ [_])[k]?).join = _
    rw [List.getElem?_append_left (by rw [List.length_append, hgl]; simp; omega), List.getElem?_append_left (by omega)]
  have hbd : (wrapBoard g (twoTo1dim n.sz p) (twoTo1dim n.sz q) c d lib lib').boardAt (twoTo1dim n.sz s) =
      .ok (if s = q then some 0 else b.bd (twoTo1dim n.sz s)) := by
    have key : (wrapBoard g (twoTo1dim n.sz p) (twoTo1dim n.sz q) c d lib lib').board[twoTo1dim n.sz s]? =
        some (if s = q then some 0 else b.bd (twoTo1dim n.sz s)) := by
      show (g.board.set (twoTo1dim n.sz q) (some 0))[twoTo1dim n.sz s]? = _
      by_cases hsq : s = q
      · rw [if_pos hsq, hsq]
        exact List.getElem?_set_self (by rw [ht.rep.blen]; exact hq361)
      · have hne : twoTo1dim n.sz q ≠ twoTo1dim n.sz s := fun e => hsq (by
          rw [← ptOf_twoTo1 hI.good hs, ← ptOf_twoTo1 hI.good hq, e])
        rw [if_neg hsq, List.getElem?_set_ne hne, ← ht.bd]
        have hl : twoTo1dim n.sz s < g.board.length := by rw [ht.rep.blen]; exact hs361
        rw [List.getElem?_eq_getElem hl]
        unfold Goban.bd
        rw [List.getElem?_eq_getElem hl]; rfl
    unfold Goban.boardAt
    rw [key]
  unfold Goban.getColor Goban.getColorIdx
  rw [show (wrapBoard g (twoTo1dim n.sz p) (twoTo1dim n.sz q) c d lib lib').size = n.sz from ht.size.trans hI.size, hbd, ok_bind, hI.size,
    hI.rep.boardAt hs361, ok_bind]
  by_cases hsq : s = q
  · rw [if_pos hsq, if_pos hsq]
    dsimp only
    rw [hat, hat, hw 0 (by omega), hcol]
  · rw [if_neg hsq, if_neg hsq]
    cases hb : b.bd (twoTo1dim n.sz s) with
    | none => rfl
    | some k =>
      dsimp only
      obtain ⟨grp, hgrp⟩ := hI.rep.live _ _ hb
      have hk := Goban.ch_lt hgrp
      rw [hat, hat, hw k (by omega), hcol]

/-- The points beside `p` are empty. -/
def Alone (n : Dim) (b : Goban) (p : Coord) : Prop := ∀ s, OnBoard n s → Adj p s → b.getColor s = .ok none

theorem Alone.nbrs {b : Goban} {p : Coord} (h : Alone n b p) (hI : Inv n b) (hp : OnBoard n p) :
    ∀ i ∈ nbrs n (twoTo1dim n.sz p), b.bd i = none := by
  intro i hi
  have hpN := twoTo1_lt hI.good hp
  obtain ⟨h1, h2⟩ := (mem_nbrs hI.good hpN).1 hi
  rw [ptOf_twoTo1 hI.good hp] at h2
  have hO := ptOf_onBoard h1
  have := (hI.view_none_iff hO).1 ((getColor_none hI hO).1 (h _ hO h2))
  rwa [twoTo1_ptOf] at this

/-- **C131**, a board that goes on after a panic. Once a `push` has panicked, the next stone on a point with nothing beside it is accepted,
and its point then shows the colour of the first group recorded in the life of the board, whatever was pushed; if that group is gone,
`get_color` panics there. -/
theorem C131_push_after {r : Nat} {b : Goban} (h : BoardRecords dbg n r b) {p : Coord} {c : Color} (hp : OnBoard n p)
    (he : b.getColor p = .ok none) (hx : b.push dbg p c = panic) {q : Coord} (d : Color) (hq : OnBoard n q) (heq : b.getColor q = .ok none)
    (hal : Alone n b q) :
    ∃ b'', (U.after (Goban.pushU dbg p c) b).push dbg q d = .ok b'' ∧
      b''.getColor q = (b.chains.chainAt 0 >>= fun grp => .ok (some grp.color)) ∧
      ∀ s, OnBoard n s → s ≠ q → b''.getColor s = b.getColor s := by
  obtain ⟨h1, h2⟩ := (C87_push h hp he).2.1.1 hx
  have hI := h.inv
  have hb := (hI.view_none_iff hp).1 ((getColor_none hI hp).1 he)
  have hbq := (hI.view_none_iff hq).1 ((getColor_none hI hq).1 heq)
  have hfull : b.chains.length = 65535 := by rw [h.length, h1]
  obtain ⟨a, g1, dead, lib, ha, ht, _, e⟩ := push_left (dbg := dbg) hI hp hb hfull h2
  have hopp : ∀ k ∈ a.opp, ∃ grp, b.ch k = some grp := fun k hk => by
    obtain ⟨j, _, hbj, _⟩ := (ha.opp k).1 hk
    exact hI.rep.live j k hbj
  have hafter : U.after (Goban.pushU dbg p c) b = ghostBoard g1 (twoTo1dim n.sz p) c lib := by
    have : Goban.pushU dbg p c b = .error .panic (ghostBoard g1 (twoTo1dim n.sz p) c lib) := by
      unfold Goban.pushU
      exact step_rd (a := ()) (debugAssert_true (by rw [hI.size]; exact decide_eq_true hp.1))
        (step_rd (a := ()) (debugAssert_true (by rw [hI.size]; exact decide_eq_true hp.2)) (U.bind_error e))
    unfold U.after
    rw [this]
  have hs1 : g1.size = n.sz := ht.size.trans hI.size
  obtain ⟨lib', _, _, e'⟩ := ghost_push (dbg := dbg) (c := c) (d := d) (lib := lib) ht.rep hs1 hI.good (ht.clen.trans hfull)
    (hI.lt361 (twoTo1_lt hI.good hp)) (by rw [ht.bd]; exact hb) hq (by rw [ht.bd]; exact hbq)
    (fun i hi => by rw [ht.bd]; exact hal.nbrs hI hq i hi)
  refine ⟨wrapBoard g1 (twoTo1dim n.sz p) (twoTo1dim n.sz q) c d lib lib', ?_, ?_, fun s hs hne => ?_⟩
  · rw [hafter, push_eq (n := n) (g := ghostBoard g1 (twoTo1dim n.sz p) c lib) hs1 hq, e']; rfl
  · rw [wrap_getColor hI ht hfull hopp hq hq, if_pos rfl]
  · rw [wrap_getColor hI ht hfull hopp hq hs, if_neg hne]

/-- The verdict on a point with nothing beside it. -/
theorem lone_check {g : Game} {p : Coord} (hs : g.goban.size = n.sz) (hg : n.Good) (hp : OnBoard n p)
    (hb : g.goban.boardAt (twoTo1dim n.sz p) = .ok none) (hnb : ∀ i ∈ nbrs n (twoTo1dim n.sz p), g.goban.boardAt i = .ok none)
    (hex : ∃ s, OnBoard n s ∧ Adj p s) (r : IllegalRules) :
    g.checkPointBy dbg p r = .ok (if r.ko = true ∧ g.koPoint = some p then some .ko else none) := by
  have hpN := twoTo1_lt hg hp
  have hc : ∀ {s}, g.goban.boardAt (twoTo1dim n.sz s) = .ok none → g.goban.getColor s = .ok none := by
    intro s h
    unfold Goban.getColor Goban.getColorIdx
    rw [hs, h]; rfl
  have hcp := hc hb
  have hadj : ∀ s ∈ adjList n p, g.goban.getColor s = .ok none := by
    intro s h
    obtain ⟨h1, h2⟩ := (mem_adjList hg hp).1 h
    refine hc (hnb _ ((mem_nbrs hg hpN).2 ⟨twoTo1_lt hg h1, ?_⟩))
    rwa [ptOf_twoTo1 hg hp, ptOf_twoTo1 hg h1]
  obtain ⟨s0, l0, hl⟩ : ∃ s l, adjList n p = s :: l := by
    obtain ⟨s, h1, h2⟩ := hex
    have := (mem_adjList hg hp).2 ⟨h1, h2⟩
    cases hc : adjList n p with
    | nil => rw [hc] at this; cases this
    | cons s l => exact ⟨s, l, rfl⟩
  have hnc : g.goban.neighborsCoords dbg p = .ok (s0 :: l0) := by
    unfold Goban.neighborsCoords
    rw [hs, validCoords_ok hg hp, hl]
  have hc0 : g.goban.getColor s0 = .ok none := hadj s0 (by rw [hl]; simp)
  have hgr : g.goban.connectedGroups dbg p = .ok [] := by
    unfold Goban.connectedGroups Goban.connectedGroupsIdx
    rw [hs, neighborsIdx_ok hs hg hpN, ok_bind]
    have : ∀ l : List Nat, (∀ i ∈ l, g.goban.boardAt i = .ok none) → l.foldlM g.goban.connectedStep [] = .ok [] := by
      intro l
      induction l with
      | nil => intro _; rfl
      | cons i l ih =>
        intro h
        rw [List.foldlM_cons]
        unfold Goban.connectedStep
        rw [h i (by simp)]
        exact ih (fun j hj => h j (by simp [hj]))
    rw [this _ hnb]; rfl
  have hlib : g.goban.hasLiberties dbg p = .ok true := by
    unfold Goban.hasLiberties Goban.firstLiberty
    rw [hnc, ok_bind]
    dsimp only
    rw [hc0]; rfl
  have hsu : g.checkSuicide dbg { coord := p, color := g.turn } = .ok false := by
    unfold Game.checkSuicide
    rw [hlib]; rfl
  have hko : g.checkKo dbg { coord := p, color := g.turn } = .ok (decide (g.koPoint = some p)) := by
    unfold Game.checkKo
    by_cases h : g.koPoint = some p
    · rw [if_pos h, hgr]; simp [h]
    · rw [if_neg h]; simp [h]
  have hey : g.checkEye dbg { coord := p, color := g.turn } = .ok false := by
    unfold Game.checkEye
    dsimp only
    rw [hcp, ok_bind]
    unfold Goban.anyConnectedPoint Goban.anyConnected
    rw [hnc, ok_bind]
    dsimp only
    rw [hc0]; rfl
  have hsk : g.checkSuperKo dbg { coord := p, color := g.turn } = .ok false := by
    unfold Game.checkSuperKo Game.willCapture
    dsimp only
    split
    · rfl
    · rw [hgr]; rfl
  unfold Game.checkPointBy
  dsimp only
  rw [hcp, hsu, hko, hey, hsk]
  cases r.suicide <;> cases r.ko <;> cases r.fillEye <;> cases r.superko <;> by_cases h : g.koPoint = some p <;> simp [h]

theorem beqFrom_left {x b b' : Goban} : ∀ {l : List Coord}, (∀ p ∈ l, b'.getColor p = b.getColor p) → x.beqFrom b' l = x.beqFrom b l
  | [], _ => rfl
  | p :: l, h => by
    unfold Goban.beqFrom
    rw [h p (by simp), beqFrom_left (l := l) (fun q hq => h q (by simp [hq]))]

theorem contains_left {p : Coord} {c : Color} {b b' : Goban} (h : Leftover n p c b b') (hs : b.size = n.sz) :
    ∀ l : List Goban, historyContains l b' = historyContains l b
  | [] => rfl
  | x :: l => by
    have : x.beq b' = x.beq b := by
      unfold Goban.beq
      rw [h.size, h.hash]
      by_cases hx : x.size ≠ b.size ∨ x.zobristHash ≠ b.zobristHash
      · rw [if_pos hx, if_pos hx]
      · rw [if_neg hx, if_neg hx]
        have hxs : x.size = n.sz := by
          by_contra hne
          exact hx (Or.inl (by rw [hs]; exact hne))
        rw [hxs, allCoords_eq]
        exact beqFrom_left (fun q hq => h.colors q (mem_points.1 hq))
    unfold historyContains
    rw [this, contains_left h hs l]

variable {m0 r0 r : Nat} {g0 g : Game}

/-- **C131**, a game that goes on after a panic. If `try_play` panicked on a point with nothing beside it, the same call made again is
accepted and the turn passes, but the point then shows the colour of the first group recorded in the life of the game, whoever played
there; if that group is gone, `get_color` panics there. -/
theorem C131_try_play_again (hf : Fresh dbg n m0 g0) (hb : BoardRecords dbg n r0 g0.goban) (h : Records dbg n g0 r0 r g) {x y : Nat}
    (hp : OnBoard n (x, y)) (hx : g.tryPlay dbg (.play x y) = panic) (hal : Alone n g.goban (x, y))
    (hex : ∃ s, OnBoard n s ∧ Adj (x, y) s) :
    ∃ g'', (U.after (Game.tryPlayU dbg (.play x y)) g).tryPlay dbg (.play x y) = .ok (none, g'') ∧
      g''.turn = g.turn.opp ∧ g''.prisoners = g.prisoners ∧
      g''.goban.getColor (x, y) = (g.goban.chains.chainAt 0 >>= fun grp => .ok (some grp.color)) ∧
      ∀ s, OnBoard n s → s ≠ (x, y) → g''.goban.getColor s = g.goban.getColor s := by
  obtain ⟨h1, h2, h3, h4⟩ := (C87_try_play hf hb h hp).1.1 hx
  have hI := (h.inv hf).1
  have hh := (h.inv hf).2
  have hst := (h.stuck hf hb (p := (x, y))).2 ⟨h1, h2⟩
  have hfull : g.goban.chains.length = 65535 := hst.1
  obtain ⟨o, s1, s2, s3⟩ := checkPointBy_split (dbg := dbg) hI hp g.rule.flagIllegal
  rw [h4] at s1; cases s1
  have he := s3 rfl
  have hbp := (hI.view_none_iff hp).1 ((getColor_none hI hp).1 he)
  obtain ⟨c1, c2, c3⟩ := checkPointBy_stuck (dbg := dbg) hI hh hp g.rule.flagIllegal
  have hpN := twoTo1_lt hI.good hp
  have hck := lone_check (dbg := dbg) hI.size hI.good hp (by rw [hI.rep.boardAt (hI.lt361 hpN), hbp])
    (fun i hi => by rw [hI.rep.boardAt (hI.lt361 (nbrs_lt hI.good hpN hi)), hal.nbrs hI hp i hi]) hex g.rule.flagIllegal
  have hko : ¬ (g.rule.flagIllegal.ko = true ∧ g.koPoint = some (x, y)) := by
    intro hc
    rw [if_pos hc] at hck
    have := c3 hst _ hck
    rw [h4] at this; cases this
  rw [if_neg hko] at hck
  obtain ⟨hist, el, hcase⟩ := historyInsert_ok hI g.history hh
  have hhist : ∀ b ∈ hist, Inv n b := by
    rcases hcase with ⟨rfl, _⟩ | ⟨rfl, _⟩
    · exact hh
    · intro b hb'
      rcases List.mem_append.1 hb' with hb' | hb'
      · exact hh b hb'
      · rw [List.mem_singleton.1 hb']; exact hI
  obtain ⟨a, g1, dead, lib, ha, ht, _, e⟩ := push_left (dbg := dbg) hI hp hbp hfull hst.2
  have hL := left_of_push (lib := lib) hI hp hfull ha ht
  have hopp : ∀ k ∈ a.opp, ∃ grp, g.goban.ch k = some grp := fun k hk => by
    obtain ⟨j, _, hbj, _⟩ := (ha.opp k).1 hk
    exact hI.rep.live j k hbj
  have hafter : U.after (Game.tryPlayU dbg (.play x y)) g =
      { g with history := hist, goban := ghostBoard g1 (twoTo1dim n.sz (x, y)) g.turn lib } := by
    have hpl : Game.playU dbg (.play x y) g =
        .error .panic { g with history := hist, goban := ghostBoard g1 (twoTo1dim n.sz (x, y)) g.turn lib } := by
      unfold Game.playU
      refine step_st (s' := { g with history := hist }) (by rw [el]; rfl) (step_rd (a := g.turn) rfl ?_)
      refine U.bind_error ?_
      unfold Game.onGoban
      dsimp only
      rw [e]
    have : Game.tryPlayU dbg (.play x y) g =
        .error .panic { g with history := hist, goban := ghostBoard g1 (twoTo1dim n.sz (x, y)) g.turn lib } := by
      unfold Game.tryPlayU
      refine step_rd (a := g.passes) rfl ?_
      rw [if_neg h3]
      refine step_rd (a := none) he ?_
      simp only [ne_eq, not_true_eq_false, if_false]
      refine step_rd (a := none) hck ?_
      exact U.bind_error hpl
    unfold U.after
    rw [this]
  rw [hafter]
  have hs1 : g1.size = n.sz := ht.size.trans hI.size
  have hne0 : ∃ i, i ∈ nbrs n (twoTo1dim n.sz (x, y)) := by
    obtain ⟨s, k1, k2⟩ := hex
    refine ⟨twoTo1dim n.sz s, (mem_nbrs hI.good hpN).2 ⟨twoTo1_lt hI.good k1, ?_⟩⟩
    rwa [ptOf_twoTo1 hI.good hp, ptOf_twoTo1 hI.good k1]
  obtain ⟨lib', hlen', hlib', e'⟩ := ghost_push (dbg := dbg) (c := g.turn) (d := g.turn) (lib := lib) ht.rep hs1 hI.good
    (ht.clen.trans hfull) (hI.lt361 hpN) (by rw [ht.bd]; exact hbp) hp (by rw [ht.bd]; exact hbp)
    (fun i hi => by rw [ht.bd]; exact hal.nbrs hI hp i hi)
  have hdead : (Group.newWithLiberties g.turn (twoTo1dim n.sz (x, y)) lib').isDead = false := by
    rw [← Bool.not_eq_true, isDead_iff]
    intro hd
    obtain ⟨i, hi⟩ := hne0
    have := (hlib' i).2 hi
    rw [show has i lib' = false from hd i] at this
    cases this
  have hmv : (ghostBoard g1 (twoTo1dim n.sz (x, y)) g.turn lib).move dbg (!g.rule.flagIllegal.suicide) (x, y) g.turn =
      .ok { removed := (0, 0), ko := none,
            goban := wrapBoard g1 (twoTo1dim n.sz (x, y)) (twoTo1dim n.sz (x, y)) g.turn g.turn lib lib' } := by
    unfold Goban.move
    rw [e', ok_bind]
    unfold Goban.removeCapturedStonesAux
    have hat : (wrapBoard g1 (twoTo1dim n.sz (x, y)) (twoTo1dim n.sz (x, y)) g.turn g.turn lib lib').chains.chainAt 65536 =
        .ok (Group.newWithLiberties g.turn (twoTo1dim n.sz (x, y)) lib') := by
      unfold Groups.chainAt wrapBoard
      dsimp only
      rw [List.getElem?_append_right (by rw [List.length_append, ht.clen, hfull]; simp), List.length_append, ht.clen, hfull]
      rfl
    simp only [List.foldlM_nil, pure_bind]
    show (wrapBoard g1 (twoTo1dim n.sz (x, y)) (twoTo1dim n.sz (x, y)) g.turn g.turn lib lib').chains.chainAt 65536 >>= _ = _
    rw [hat, ok_bind, hdead, Bool.and_false]
    rfl
  obtain ⟨rr, er, _⟩ := historyContains_ok hI hist hhist
  have hins : ∃ hist', historyInsert hist (ghostBoard g1 (twoTo1dim n.sz (x, y)) g.turn lib) = .ok hist' := by
    unfold historyInsert
    rw [contains_left hL hI.size, er, ok_bind]
    cases rr
    · exact ⟨_, rfl⟩
    · exact ⟨_, rfl⟩
  obtain ⟨hist', ei⟩ := hins
  have hgb : ∀ i, i < 361 → (ghostBoard g1 (twoTo1dim n.sz (x, y)) g.turn lib).boardAt i = .ok (g.goban.bd i) := by
    intro i hi
    rw [show (ghostBoard g1 (twoTo1dim n.sz (x, y)) g.turn lib).boardAt i = g1.boardAt i from rfl, ht.rep.boardAt hi, ht.bd]
  have hck' := lone_check (dbg := dbg)
    (g := { g with history := hist, goban := ghostBoard g1 (twoTo1dim n.sz (x, y)) g.turn lib }) hs1 hI.good hp
    (by exact (hgb _ (hI.lt361 hpN)).trans (by rw [hbp]))
    (fun i hi => by exact (hgb _ (hI.lt361 (nbrs_lt hI.good hpN hi))).trans (by rw [hal.nbrs hI hp i hi])) hex g.rule.flagIllegal
  rw [if_neg hko] at hck'
  refine ⟨{ g with
      history := hist', goban := wrapBoard g1 (twoTo1dim n.sz (x, y)) (twoTo1dim n.sz (x, y)) g.turn g.turn lib lib', koPoint := none,
      turn := g.turn.opp, passes := 0, prisoners := (g.prisoners.1 + 0, g.prisoners.2 + 0) }, ?_, ?_⟩
  · unfold Game.tryPlay
    rw [if_neg h3]
    dsimp only
    rw [hL.colors _ hp, he, ok_bind, if_neg (by simp)]
    unfold Game.checkPoint
    rw [hck', ok_bind]
    dsimp only
    rw [play_eq]
    dsimp only
    rw [ei, ok_bind, hmv]
    rfl
  · refine ⟨rfl, rfl, ?_, fun s hs hne => ?_⟩
    · exact (wrap_getColor hI ht hfull hopp hp hp).trans (by rw [if_pos rfl])
    · exact (wrap_getColor hI ht hfull hopp hp hs).trans (by rw [if_neg hne])

end Model
