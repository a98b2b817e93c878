import Verif.Props.OffTable
import Verif.Props.Occupied
import Verif.Props.Profile
/-!
# C133: what the panic of a stone put on a stone leaves behind in a debug build
-/

namespace Model
open Spec (OnBoard Adj Joins place)
open Bits (has)

variable {n : Dim} {m : Nat} {b : Goban} {p : Coord} {c d : Color}

/-- A debug build's `push_wth_feedback` on an occupied point with an occupied neighbour. -/
theorem over_cases (h : Inv n b) (hp : OnBoard n p) {k : Nat} (hb : b.bd (twoTo1dim n.sz p) = some k) {j0 k0 : Nat}
    (hj0 : j0 ∈ nbrs n (twoTo1dim n.sz p)) (hk0 : b.bd j0 = some k0) :
    ∃ a, AroundOK b c (nbrs n (twoTo1dim n.sz p)) a ∧
    ((a.opp ≠ [] ∨ a.same.length = 1) → Goban.pushWthFeedbackU true p c b = .error .panic b) ∧
    (a.opp = [] → a.same.length ≠ 1 → b.chains.length = 65535 → ∃ lib, lib.length = 46 ∧
      Goban.pushWthFeedbackU true p c b = .error .panic (ghostBoard b (twoTo1dim n.sz p) c lib)) ∧
    (a.opp = [] → a.same.length ≠ 1 → b.chains.length < 65535 → ∃ f, b.pushWthFeedback false p c = .ok f ∧
      Goban.pushWthFeedbackU true p c b = .error .panic { f.goban with zobristHash := b.zobristHash } ∧
      ∃ s grp t, b.ch k = some grp ∧ k ∉ a.same ∧
        Att (strip b k) s (twoTo1dim n.sz p) c a.same t (fun x => x ∈ a.libs ∨ LibOf (strip b k) a.same x) ∧
        Gr k grp (fun j => if b.bd j = some k then some k else none) s { f.goban with zobristHash := b.zobristHash }) := by
  generalize hpe : twoTo1dim n.sz p = i at *
  have hpN : Ix n i := hpe ▸ twoTo1_lt h.good hp
  have hp361 := h.lt361 hpN
  have hn := h.good
  have hr := h.rep
  have hnb361 : ∀ x ∈ nbrs n i, x < 361 := fun x hx => h.lt361 (nbrs_lt hn hpN hx)
  obtain ⟨a, ea, ha⟩ := around_ok (c := c) hr hnb361
  have hfree : ∀ j gj, b.ch j = some gj → has i gj.liberties = false := by
    intro j gj hj
    cases hh : has i gj.liberties with
    | false => rfl
    | true =>
      have := ((h.libs j gj hj i).1 hh).2.1
      rw [hb] at this; cases this
  have hlib46 : ∀ j gj, b.ch j = some gj → gj.liberties.length = 46 := fun j gj hj => let ⟨_, hc⟩ := hr.chain j gj hj; hc.libs
  have hnone : ∀ j gj, b.ch j = some gj → gj.removeLiberty true i = panic := by
    intro j gj hj
    rw [removeLiberty_off (hlib46 j gj hj) (hfree j gj hj), if_neg (by simp)]
  have hsame : ∀ j ∈ a.same, ∃ gj, b.ch j = some gj ∧ gj.color = c := by
    intro j hj
    obtain ⟨x, hx, hbx, hcx⟩ := (ha.same j).1 hj
    obtain ⟨gj, hgj⟩ := hr.live x j hbx
    rw [col_of_bd hbx hgj] at hcx
    exact ⟨gj, hgj, Option.some.inj hcx⟩
  have hlibs368 : ∀ x ∈ a.libs, x < 368 := by
    intro x hx
    have := hnb361 x ((ha.libs x).1 hx).1
    omega
  have start : ∀ r, (a.opp.foldlM (Goban.takeLibertyU true i) [] >>= fun dead => Goban.attachU true i c a.same a.libs >>= fun added =>
      st (fun g => do let z ← indexZobrist i c; .ok { g with zobristHash := g.zobristHash ^^^ z }) >>= fun _ =>
      rd (fun g => if true then g.checkIntegrityAll true else .ok ()) >>= fun _ => pure (dead, added)) b = r →
      Goban.pushWthFeedbackU true p c b = r := by
    intro r e
    unfold Goban.pushWthFeedbackU
    exact step_rd (a := i) (by rw [h.size, hpe]) (step_rd (by exact neighborsIdx_ok h.size hn hpN) (step_rd (by exact ea) e))
  refine ⟨a, ha, ?_, ?_, ?_⟩
  · intro hcase
    apply start
    cases ho : a.opp with
    | cons o os =>
      obtain ⟨x, hx, hbx, hcx⟩ := (ha.opp o).1 (by rw [ho]; simp)
      obtain ⟨go, hgo⟩ := hr.live x o hbx
      refine U.bind_error ?_
      rw [List.foldlM_cons]
      refine U.bind_error ?_
      unfold Goban.takeLibertyU
      refine step_rd (a := go) (Goban.chainAt_ok hgo) (U.bind_error ?_)
      unfold rd
      dsimp only
      rw [hnone o go hgo]; rfl
    | nil =>
      rw [ho] at hcase
      obtain ⟨u, hu⟩ := List.length_eq_one_iff.1 (hcase.resolve_left (by simp))
      obtain ⟨gu, hgu, _⟩ := hsame u (by rw [hu]; simp)
      rw [hu]
      refine U.bind_ok (a := []) rfl |>.trans (U.bind_error ?_)
      unfold Goban.attachU
      refine U.bind_error ?_
      unfold st
      dsimp only
      rw [Goban.chainAt_ok hgu, ok_bind, hnone u gu hgu]; rfl
  · intro ho hs hfull
    obtain ⟨lib, hlib, e⟩ := attach_left (dbg := true) (c := c) (same := a.same) (libs := a.libs) hr hp361 hlibs368 hfull hs
    refine ⟨lib, hlib, start _ ?_⟩
    rw [ho]
    exact U.bind_ok (a := []) rfl |>.trans (U.bind_error e)
  · intro ho hs1 hroom
    have hplibs : i ∉ a.libs := fun h' => nbrs_ne hn hpN ((ha.libs i).1 h').1 rfl
    rcases hs : a.same with _ | ⟨u, _ | ⟨v, w⟩⟩
    · exfalso
      obtain ⟨g0, hg0⟩ := hr.live j0 k0 hk0
      have hc0 := col_of_bd hk0 hg0
      by_cases hcc : g0.color = c
      · have := (ha.same k0).2 ⟨j0, hj0, hk0, by rw [hc0, hcc]⟩
        rw [hs] at this; simp at this
      · have := (ha.opp k0).2 ⟨j0, hj0, hk0, by rw [hc0, Color.eq_opp_of_ne hcc]⟩
        rw [ho] at this; simp at this
    · rw [hs] at hs1; simp at hs1
    · have hks : k ∉ a.same := by
        intro hks
        obtain ⟨gk, hgk, hck⟩ := hsame k hks
        have hall : ∀ j ∈ a.same, j = k := by
          intro j hj
          obtain ⟨x, hx, hbx, hcx⟩ := (ha.same j).1 hj
          have := h.closed i x k hx hb (by rw [hcx, col_of_bd hb hgk, hck])
          rw [hbx] at this; exact Option.some.inj this
        have hnd := ha.snd
        have h1 := hall u (by rw [hs]; simp)
        have h2 := hall v (by rw [hs]; simp)
        rw [hs, h1, h2] at hnd; simp at hnd
      obtain ⟨grp, hk⟩ := hr.live i k hb
      have hlt := Goban.ch_lt hk
      have hrs := strip_rep hr hlt
      have hsp : (strip b k).bd i = none := by rw [strip_bd, if_pos hb]
      obtain ⟨s1, e1, h1⟩ := create_att (dbg := true) (c := c) (libs := a.libs) hrs hp361 hsp hlibs368
        (by show (b.chains.set k none).length < _; rw [List.length_set]; exact hroom)
      have h1' : Att (strip b k) s1 i c [] (strip b k).chains.length (fun x => x ∈ a.libs ∨ LibOf (strip b k) [] x) :=
        h1.congr (by
          intro x
          constructor
          · exact Or.inl
          · rintro (h' | ⟨k, hk, _⟩)
            · exact h'
            · simp at hk)
      have hsch : ∀ j ∈ a.same, (strip b k).ch j = b.ch j := fun j hj => by
        rw [strip_ch hlt, if_neg (fun (h' : j = k) => hks (h' ▸ hj))]
      obtain ⟨s2, t, e2, h2⟩ := mergeFold_att (dbg := true) hrs hsp a.same [] s1 _ h1' (by simpa using ha.snd)
        (fun j hj => by rw [hsch j hj]; exact hsame j hj)
      rw [List.nil_append] at h2
      obtain ⟨gt, hgt, hct, hL⟩ := h2.added
      obtain ⟨lt, hcht⟩ := h2.rep.chain t gt hgt
      have hfreeT : has i gt.liberties = false := by
        cases hh : has i gt.liberties with
        | false => rfl
        | true =>
          rcases (hL i).1 hh with h' | ⟨j, hj, gj, h3, h4⟩
          · exact absurd h' hplibs
          · rw [hsch j hj] at h3
            rw [hfree j gj h3] at h4; cases h4
      obtain ⟨r1, f1, q1⟩ := (strip_gr hk).create e1
      obtain ⟨r2, f2, q2⟩ := q1.mergeFold e2
      have hrt := q2.chainAt (Goban.chainAt_ok hgt)
      have hhash : r2.zobristHash = b.zobristHash := by rw [q2.hash, h2.hash]; rfl
      have hgr : r2.ch t = some gt := by
        unfold Goban.ch
        rw [chainAt_ok_iff.1 hrt]; rfl
      have ez := indexZobrist_ok (c := c) hp361
      have f1' := (Goban.createChain_le ..).ok _ f1
      have f2' := (Le.foldlM (fun s x => Goban.mergeStep_le s x) a.same _).ok _ f2
      have hatt : b.attach false i c a.same a.libs = .ok (t, r2) := by
        rw [hs] at f2' ⊢
        unfold Goban.attach
        dsimp only
        rw [f1', ok_bind]
        dsimp only
        rw [f2', ok_bind]
        dsimp only
        rw [hrt, ok_bind, removeLiberty_off hcht.libs hfreeT, if_pos ⟨rfl, by omega⟩, ok_bind, setChain_same hgr]
      refine ⟨{ goban := { r2 with zobristHash := r2.zobristHash ^^^ zkey i (some c) }, dead := [], added := t }, ?_, start _ ?_, s2, grp, t, hk, hs ▸ hks, hs ▸ h2, ?_⟩
      · unfold Goban.pushWthFeedback
        rw [h.size, hpe]
        dsimp only
        rw [neighborsIdx_ok h.size hn hpN, ok_bind, ea, ok_bind, ho]
        show (b.attach false i c a.same a.libs >>= _) = _
        rw [hatt, ok_bind]
        dsimp only
        rw [ez, ok_bind]
        rfl
      · rw [ho]
        refine U.bind_ok (a := []) rfl |>.trans (U.bind_error ?_)
        have hleft : ({ r2 with zobristHash := b.zobristHash } : Goban) = r2 := by rw [← hhash]
        show _ = EStateM.Result.error Fault.panic ({ r2 with zobristHash := b.zobristHash } : Goban)
        rw [hleft, hs]
        rw [hs] at f2
        unfold Goban.attachU
        dsimp only
        rw [U.bind_ok (U.of_toM (by rw [Goban.create_toM]; exact f1))]
        rw [U.bind_ok (U.of_toM (show U.toM _ r1 = .ok (t, r2) by rw [U.toM_foldlM (Goban.mergeStep_toM true), f2]; rfl))]
        refine U.bind_error ?_
        unfold st
        dsimp only
        rw [hrt, ok_bind, removeLiberty_off hcht.libs hfreeT, if_neg (by simp)]
        rfl
      · have hleft : ({ r2 with zobristHash := b.zobristHash } : Goban) = r2 := by rw [← hhash]
        show Gr k grp _ s2 ({ r2 with zobristHash := b.zobristHash } : Goban)
        rw [hleft]; exact q2

theorem opp_ne_nil (h : Inv n b) (hp : OnBoard n p) {a : Goban.Around} (ha : AroundOK b c (nbrs n (twoTo1dim n.sz p)) a) :
    a.opp ≠ [] ↔ ∃ q, OnBoard n q ∧ Adj p q ∧ b.view q = some c.opp := by
  have hpN := twoTo1_lt h.good hp
  constructor
  · intro hne
    obtain ⟨o, ho⟩ := List.exists_mem_of_ne_nil _ hne
    obtain ⟨j, hj, hbj, hcj⟩ := (ha.opp o).1 ho
    obtain ⟨hj1, hj2⟩ := (mem_nbrs h.good hpN).1 hj
    rw [ptOf_twoTo1 h.good hp] at hj2
    exact ⟨ptOf n j, ptOf_onBoard hj1, hj2, by rw [h.view_ptOf hj1]; exact hcj⟩
  · rintro ⟨q, hq, hadj, hv⟩ hnil
    obtain ⟨k, hk⟩ := bd_of_view h hq hv
    rw [h.view hq] at hv
    have := (ha.opp k).2 ⟨_, (mem_nbrs h.good hpN).2 ⟨twoTo1_lt h.good hq, by
      rw [ptOf_twoTo1 h.good hp, ptOf_twoTo1 h.good hq]; exact hadj⟩, hk, hv⟩
    rw [hnil] at this; cases this

theorem pushU_of_error (h : Inv n b) (hp : OnBoard n p) {dbg : Bool} {b' : Goban} (e : Goban.pushWthFeedbackU dbg p c b = .error .panic b') :
    Goban.pushU dbg p c b = .error .panic b' := by
  unfold Goban.pushU
  exact step_rd (a := ()) (debugAssert_true (by rw [h.size]; exact decide_eq_true hp.1))
    (step_rd (a := ()) (debugAssert_true (by rw [h.size]; exact decide_eq_true hp.2)) (U.bind_error e))

/-- What a debug build's panicking stone on a stone leaves on the board. -/
theorem over_left (h : Inv n b) (hp : OnBoard n p) (hd : b.view p = some d) {q : Coord} (hq : OnBoard n q) (ha : Adj p q)
    (hqn : b.view q ≠ none) :
    ((∃ q, OnBoard n q ∧ Adj p q ∧ b.view q = some c.opp) ∨ Joins n b.view p c → Goban.pushWthFeedbackU true p c b = .error .panic b) ∧
    ((∀ q, OnBoard n q → Adj p q → b.view q ≠ some c.opp) → ¬ Joins n b.view p c →
      (∃ r, b.push false p c = .ok r ∧ Goban.pushWthFeedbackU true p c b = .error .panic { r with zobristHash := b.zobristHash }) ∨
      ∃ b', b.chains.length = 65535 ∧ Goban.pushWthFeedbackU true p c b = .error .panic b' ∧ Leftover n p c b b') := by
  obtain ⟨k, hk⟩ := bd_of_view h hp hd
  obtain ⟨e, he⟩ := Option.ne_none_iff_exists'.1 hqn
  obtain ⟨k', hk'⟩ := bd_of_view h hq he
  have hpN := twoTo1_lt h.good hp
  obtain ⟨a, hA, h1, h2, h3⟩ := over_cases (c := c) h hp hk ((mem_nbrs h.good hpN).2 ⟨twoTo1_lt h.good hq, by
    rw [ptOf_twoTo1 h.good hp, ptOf_twoTo1 h.good hq]; exact ha⟩) hk'
  have hj := same_joins h hp hA
  have ho := opp_ne_nil h hp hA
  refine ⟨fun hc => h1 (hc.imp ho.2 hj.2), fun hno hnj => ?_⟩
  have hnil : a.opp = [] := by
    by_contra hne
    obtain ⟨q, h4, h5, h6⟩ := ho.1 hne
    exact hno q h4 h5 h6
  have hs : a.same.length ≠ 1 := fun h' => hnj (hj.1 h')
  by_cases hroom : b.chains.length < 65535
  · obtain ⟨f, ef, e, _⟩ := h3 hnil hs hroom
    exact .inl ⟨f.goban, by rw [push_eq h.size hp, ef]; rfl, e⟩
  · have hfull : b.chains.length = 65535 := by have := h.rep.few; omega
    obtain ⟨lib, hlib, e⟩ := h2 hnil hs hfull
    refine .inr ⟨_, hfull, e, left_of_push (dead := []) h hp hfull hA ?_⟩
    rw [hnil]
    exact ⟨h.rep, fun _ => rfl, rfl, rfl, rfl, fun _ _ => rfl, by simp, List.Sublist.refl _, by simp⟩

/-- **C133**: a debug build's `push` on an occupied point with an occupied neighbour panics. If a stone of the other colour stands beside
the point, or the neighbours of the same colour are of one group, the board is exactly as before. -/
theorem C133_unchanged (hb : Board true n m b) (hp : OnBoard n p) (hd : b.getColor p = .ok (some d))
    (hc : (∃ q, OnBoard n q ∧ Adj p q ∧ b.getColor q = .ok (some c.opp)) ∨ Joins n b.view p c) :
    Goban.pushU true p c b = .error .panic b := by
  have h := hb.inv.1
  have hv : ∀ {q o}, b.getColor q = .ok o → b.view q = o := fun e => by unfold Goban.view; rw [e]
  have hc' : (∃ q, OnBoard n q ∧ Adj p q ∧ b.view q = some c.opp) ∨ Joins n b.view p c :=
    hc.imp (fun ⟨q, h1, h2, h3⟩ => ⟨q, h1, h2, hv h3⟩) id
  obtain ⟨q, hq, hadj, hqn⟩ : ∃ q, OnBoard n q ∧ Adj p q ∧ b.view q ≠ none := by
    rcases hc' with ⟨q, h1, h2, h3⟩ | ⟨⟨q, h1, h2, h3⟩, _⟩
    · exact ⟨q, h1, h2, by rw [h3]; simp⟩
    · exact ⟨q, h1, h2, by rw [h3]; simp⟩
  exact pushU_of_error h hp ((over_left h hp (hv hd) hq hadj hqn).1 hc')

/-- **C133**, the other case: all stones beside the point are of the colour put, of two groups or more, so the stone that stood there is a
group of its own and of the other colour. Unless the group table is full the board is the one a release build returns, except for the hash,
which is as before: the point shows the new colour, no other point has changed, and `number_of_stones` still counts the old stone. -/
theorem C133_left (hb : Board true n m b) (hp : OnBoard n p) (hd : b.getColor p = .ok (some d)) {q : Coord} {e : Color} (hq : OnBoard n q)
    (ha : Adj p q) (he : b.getColor q = .ok (some e)) (hno : ∀ q, OnBoard n q → Adj p q → b.getColor q ≠ .ok (some c.opp))
    (hj : ¬ Joins n b.view p c) :
    (∃ r, b.push false p c = .ok r ∧ Goban.pushU true p c b = .error .panic { r with zobristHash := b.zobristHash } ∧ d = c.opp ∧
      ShowsAt n r (place b.view p c) ∧ r.numberOfStones = Spec.oneMore d (Spec.stones n r.view)) ∨
    ∃ b', b.chains.length = 65535 ∧ Goban.pushU true p c b = .error .panic b' ∧ Leftover n p c b b' := by
  have h := hb.inv.1
  have hv : ∀ {q o}, b.getColor q = .ok o → b.view q = o := fun e => by unfold Goban.view; rw [e]
  have hg : ∀ {q}, OnBoard n q → ∀ {o}, b.view q = o → b.getColor q = .ok o := fun hq o e => by
    rw [← e, h.view hq]
    unfold Goban.getColor
    rw [h.size, h.rep.getColorIdx (h.lt361 (twoTo1_lt h.good hq))]
  have hno' : ∀ q, OnBoard n q → Adj p q → b.view q ≠ some c.opp := fun q h1 h2 h3 => hno q h1 h2 (hg h1 h3)
  rcases (over_left (c := c) h hp (hv hd) hq ha (by rw [hv he]; simp)).2 hno' hj with ⟨r, er, e'⟩ | ⟨b', h1, h2, h3⟩
  · refine .inl ⟨r, er, pushU_of_error h hp e', ?_, ?_⟩
    · by_contra hdc
      have hdc' : d = c := by
        by_contra hne
        exact hdc (Color.eq_opp_of_ne hne)
      have hec : e = c := by
        by_contra hne
        exact hno q hq ha (by rw [he, Color.eq_opp_of_ne hne])
      refine hj ⟨⟨q, hq, ha, by rw [hv he, hec]⟩, fun s t _ ht as at' vs vt => ?_⟩
      have hpc : b.view p = some c := by rw [hv hd, hdc']
      exact .step (.step (.refl s) (adj_symm as) hp (by rw [hpc, vs])) at' ht (by rw [hpc, vt])
    · have := C76_push_occupied hb.release hp c hd (by simp)
      rw [er] at this
      rcases this with ⟨r', e1, h1⟩ | ⟨e1, _⟩
      · cases e1; exact h1
      · cases e1
  · exact .inr ⟨b', h1, pushU_of_error h hp h2, h3⟩

/-- **C133** for `play`: the position is in the history, and the board is as `push` leaves it. Turn, prisoners, ko point, passes and the
rest of the game have not changed. -/
theorem C133_play {g : Game} (h : Reach true n m g) {x y : Nat} (hp : OnBoard n (x, y)) (hd : g.goban.getColor (x, y) = .ok (some d))
    {q : Coord} {e : Color} (hq : OnBoard n q) (ha : Adj (x, y) q) (he : g.goban.getColor q = .ok (some e)) :
    ∃ hist, historyInsert g.history g.goban = .ok hist ∧ Game.playU true (.play x y) g =
      .error .panic { g with history := hist, goban := U.after (Goban.pushU true (x, y) g.turn) g.goban } := by
  have hI := h.inv
  have hv : ∀ {q o}, g.goban.getColor q = .ok o → g.goban.view q = o := fun e => by unfold Goban.view; rw [e]
  obtain ⟨hist, el, _⟩ := historyInsert_ok hI g.history (fun b hb => by
    obtain ⟨m', _, hb'⟩ := h.spec.history b hb
    exact hb'.inv.1)
  refine ⟨hist, el, ?_⟩
  obtain ⟨h1, h2⟩ := over_left (c := g.turn) hI hp (hv hd) hq ha (by rw [hv he]; simp)
  obtain ⟨b', e'⟩ : ∃ b', Goban.pushWthFeedbackU true (x, y) g.turn g.goban = .error .panic b' := by
    by_cases hc : (∃ q, OnBoard n q ∧ Adj (x, y) q ∧ g.goban.view q = some g.turn.opp) ∨ Joins n g.goban.view (x, y) g.turn
    · exact ⟨_, h1 hc⟩
    · rw [not_or] at hc
      rcases h2 (fun q a b c => hc.1 ⟨q, a, b, c⟩) hc.2 with ⟨r, _, e'⟩ | ⟨b', _, e', _⟩
      · exact ⟨_, e'⟩
      · exact ⟨_, e'⟩
  unfold U.after
  rw [pushU_of_error hI hp e']
  unfold Game.playU
  refine step_st (s' := { g with history := hist }) (by rw [el]; rfl) (step_rd (a := g.turn) rfl (U.bind_error ?_))
  unfold Game.onGoban
  dsimp only
  rw [e']

/-- A debug game in which `C133_left` applies. Black has `(1, 2)` and `(3, 2)`, White `(2, 2)` and `(8, 8)`; the `play` of Black at `(2, 2)`
panics, and afterwards the point is black, two white stones are counted, it is still Black's turn, and the hash is the one of before. -/
theorem C133_reached : ∃ g0 g1 g2 g3 g4, Game.new .nine CHINESE = .ok g0 ∧ g0.tryPlay true (.play 1 2) = .ok (none, g1) ∧
    g1.tryPlay true (.play 2 2) = .ok (none, g2) ∧ g2.tryPlay true (.play 3 2) = .ok (none, g3) ∧
    g3.tryPlay true (.play 8 8) = .ok (none, g4) ∧ ∃ g5, Game.playU true (.play 2 2) g4 = .error .panic g5 ∧
    g5.goban.getColor (2, 2) = .ok (some .black) ∧ g5.goban.numberOfStones = (3, 2) ∧ g5.turn = .black ∧
    g5.goban.zobristHash = g4.goban.zobristHash := by
  obtain ⟨g0, e0, h⟩ := okAnd_iff.1 (show okAnd (Game.new .nine CHINESE) (fun g0 =>
      acceptedAnd (g0.tryPlay true (.play 1 2)) (fun g1 => acceptedAnd (g1.tryPlay true (.play 2 2)) (fun g2 =>
      acceptedAnd (g2.tryPlay true (.play 3 2)) (fun g3 => acceptedAnd (g3.tryPlay true (.play 8 8)) (fun g4 =>
      isPanic (U.toM (Game.playU true (.play 2 2)) g4) &&
      decide ((U.after (Game.playU true (.play 2 2)) g4).goban.getColor (2, 2) = .ok (some .black) ∧
        (U.after (Game.playU true (.play 2 2)) g4).goban.numberOfStones = (3, 2) ∧
        (U.after (Game.playU true (.play 2 2)) g4).turn = .black ∧
        (U.after (Game.playU true (.play 2 2)) g4).goban.zobristHash = g4.goban.zobristHash)))))) = true by
    decide +kernel)
  obtain ⟨g1, e1, h⟩ := acceptedAnd_iff h
  obtain ⟨g2, e2, h⟩ := acceptedAnd_iff h
  obtain ⟨g3, e3, h⟩ := acceptedAnd_iff h
  obtain ⟨g4, e4, h⟩ := acceptedAnd_iff h
  rw [Bool.and_eq_true] at h
  refine ⟨g0, g1, g2, g3, g4, e0, e1, e2, e3, e4, U.after (Game.playU true (.play 2 2)) g4, ?_, of_decide_eq_true h.2⟩
  have hp := isPanic_iff h.1
  unfold U.toM at hp
  unfold U.after
  cases e : Game.playU true (.play 2 2) g4 with
  | ok a s => rw [e] at hp; cases hp
  | error f s => rw [e] at hp; cases hp; rfl

end Model
