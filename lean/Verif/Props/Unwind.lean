import Verif.Proofs.Unwind
import Verif.Proofs.AnySize
import Verif.Props.Room
/-!
# C131: what a panic leaves behind
-/

namespace Model
open Spec (OnBoard Adj Joins)
open Bits (has)

variable {dbg : Bool} {n : Dim}

theorem U.of_toM {σ α : Type} {u : U σ α} {s s' : σ} {a : α} (e : U.toM u s = .ok (a, s')) : u s = .ok a s' := by
  unfold U.toM at e
  cases h : u s with
  | ok b t => rw [h] at e; cases e; rfl
  | error x t => rw [h] at e; cases e

theorem rd_ok {σ α : Type} {f : σ → M α} {s : σ} {a : α} (e : f s = .ok a) : rd f s = .ok a s := by
  unfold rd; rw [e]

theorem st_ok {σ : Type} {f : σ → M σ} {s s' : σ} (e : f s = .ok s') : st f s = .ok () s' := by
  unfold st; rw [e]

theorem U.bind_ok {σ α β : Type} {u : U σ α} {f : α → U σ β} {s s' : σ} {a : α} (e : u s = .ok a s') : (u >>= f) s = f a s' := by
  rw [U.bind_apply, e]

theorem U.bind_error {σ α β : Type} {u : U σ α} {f : α → U σ β} {s s' : σ} {x : Fault} (e : u s = .error x s') :
    (u >>= f) s = .error x s' := by
  rw [U.bind_apply, e]

theorem step_rd {σ α β : Type} {f : σ → M α} {k : α → U σ β} {s : σ} {a : α} {r : EStateM.Result Fault σ β} (e : f s = .ok a) (h : k a s = r) :
    (rd f >>= k) s = r := by
  rw [U.bind_apply, rd_ok e]; exact h

theorem step_st {σ β : Type} {f : σ → M σ} {k : Unit → U σ β} {s s' : σ} {r : EStateM.Result Fault σ β} (e : f s = .ok s') (h : k () s' = r) :
    (st f >>= k) s = r := by
  rw [U.bind_apply, st_ok e]; exact h

/-- What a panicking stone leaves on the board: the points and the hash as they were, a record of a stone that is not on the board, and the
opposing groups beside the point without that liberty. -/
structure Leftover (n : Dim) (p : Coord) (c : Color) (b b' : Goban) : Prop where
  size : b'.size = b.size
  hash : b'.zobristHash = b.zobristHash
  colors : ∀ q, OnBoard n q → b'.getColor q = b.getColor q
  stones : b'.numberOfStones = match c with
    | .black => (b.numberOfStones.1 + 1, b.numberOfStones.2)
    | .white => (b.numberOfStones.1, b.numberOfStones.2 + 1)
  groups : ∀ k grp, b.chains.chainAt k = .ok grp → ∃ grp', b'.chains.chainAt k = .ok grp' ∧ grp'.color = grp.color ∧
    grp'.numStones = grp.numStones ∧ ∀ q, OnBoard n q → ∃ x, grp.containsLiberty (twoTo1dim b.size q) = .ok x ∧
      grp'.containsLiberty (twoTo1dim b.size q) = .ok (x && !(decide (q = p) && decide (grp.color ≠ c)))
  ghost : b.chains.length = 65535 ∧ b'.chains.length = 65536 ∧ ∃ ghost, b'.chains.chainAt 65535 = .ok ghost ∧ ghost.color = c ∧
    ghost.numStones = 1

/-- The board a panicking `create_chain` leaves. -/
def ghostBoard (g : Goban) (p : Nat) (c : Color) (lib : Liberties) : Goban :=
  { g with nextStone := g.nextStone.set p p, chains := g.chains ++ [some (Group.newWithLiberties c p lib)] }

theorem create_left {g : Goban} {p : Nat} {c : Color} {libs : List Nat} (h : Rep g) (hp : p < 361)
    (hl : ∀ i ∈ libs, i < 368) (hk : g.chains.length = 65535) :
    ∃ lib, lib.length = 46 ∧ Goban.createChainU dbg p c libs g = .error .panic (ghostBoard g p c lib) := by
  obtain ⟨lib, e1, hlen, hm⟩ := set_fold_ok libs EMPTY_LIBERTIES Bits.empty_length hl
  have hpu : u16 p = p := u16_lt (by omega)
  refine ⟨lib, hlen, ?_⟩
  have hch : (ghostBoard g p c lib).ch g.chains.length = some (Group.newWithLiberties c p lib) := by
    show ((g.chains ++ [some _])[g.chains.length]?).join = _
    simp
  have hit : (Group.newWithLiberties c p lib).iter dbg (ghostBoard g p c lib).nextStone = .ok [p] := by
    show Group.iterFrom dbg (g.nextStone.set p p) (u16 p) ((g.nextStone.set p p).length + 1) (u16 p) = _
    rw [hpu, List.length_set, h.nlen]
    exact Walk.iterFrom [] p 362 (getElem?_set_eq' (by rw [h.nlen]; exact hp)) (by simp) (by simp) (by simp)
  have hup : Goban.updateChainIndexesInBoardU dbg g.chains.length (ghostBoard g p c lib) = .error .panic (ghostBoard g p c lib) := by
    unfold Goban.updateChainIndexesInBoardU
    refine step_rd (by exact Goban.chainAt_ok hch) (step_rd (by exact hit) (step_rd (a := ()) (by
      simp [debugAssert, Group.newWithLiberties]) ?_))
    rw [List.foldlM_cons]
    refine U.bind_error ?_
    unfold st
    dsimp only
    rw [hk, if_pos (by decide)]
    rfl
  unfold Goban.createChainU
  rw [hpu]
  refine step_rd e1 (step_st (Goban.setNext_ok (by rw [h.nlen]; exact hp)) ?_)
  refine step_rd (a := g.chains.length) rfl (step_st (s' := ghostBoard g p c lib) rfl ?_)
  exact U.bind_error hup

theorem attach_left {g : Goban} {p : Nat} {c : Color} {same libs : List Nat} (h : Rep g) (hp : p < 361)
    (hl : ∀ i ∈ libs, i < 368) (hk : g.chains.length = 65535) (hs : same.length ≠ 1) :
    ∃ lib, lib.length = 46 ∧ Goban.attachU dbg p c same libs g = .error .panic (ghostBoard g p c lib) := by
  obtain ⟨lib, h1, h2⟩ := create_left (dbg := dbg) (c := c) h hp hl hk
  refine ⟨lib, h1, ?_⟩
  rcases same with _ | ⟨a, _ | ⟨b, rest⟩⟩
  · exact h2
  · simp at hs
  · exact U.bind_error h2

/-- The board a stone that cannot be recorded leaves: liberties taken from the opposing groups around, and a group more. -/
theorem push_left {g : Goban} {pt : Coord} {c : Color} (h : Inv n g) (hpt : OnBoard n pt) (hb : g.bd (twoTo1dim n.sz pt) = none)
    (hfull : g.chains.length = 65535) (hj : ¬ Joins n g.view pt c) :
    ∃ a g1 dead lib, AroundOK g c (nbrs n (twoTo1dim n.sz pt)) a ∧ Took g g1 (twoTo1dim n.sz pt) a.opp dead ∧ lib.length = 46 ∧
      Goban.pushWthFeedbackU dbg pt c g = .error .panic (ghostBoard g1 (twoTo1dim n.sz pt) c lib) := by
  have hpN : Ix n (twoTo1dim n.sz pt) := twoTo1_lt h.good hpt
  have hp361 := h.lt361 hpN
  have hr := h.rep
  have hnb361 : ∀ x ∈ nbrs n (twoTo1dim n.sz pt), x < 361 := fun x hx => h.lt361 (nbrs_lt h.good hpN hx)
  obtain ⟨a, ea, ha⟩ := around_ok (c := c) hr hnb361
  have hopp : ∀ k ∈ a.opp, ∃ gk, g.ch k = some gk ∧ (dbg = true → has (twoTo1dim n.sz pt) gk.liberties = true) := by
    intro k hk
    obtain ⟨j, hj, hbj, hcj⟩ := (ha.opp k).1 hk
    obtain ⟨gk, hgk⟩ := hr.live j k hbj
    exact ⟨gk, hgk, fun _ => (h.libs k gk hgk _).2 ⟨hpN, hb, j, hj, hbj⟩⟩
  obtain ⟨g1, dead, e1, ht⟩ := take_ok (dbg := dbg) hr (show twoTo1dim n.sz pt < 368 by omega) ha.ond hopp
  have hs : a.same.length ≠ 1 := fun h' => hj ((same_joins h hpt ha).1 h')
  obtain ⟨lib, hlib, e2⟩ := attach_left (dbg := dbg) (c := c) (same := a.same) (libs := a.libs) ht.rep hp361 (fun i hi => by
    have := hnb361 i ((ha.libs i).1 hi).1
    omega) (by rw [ht.clen]; exact hfull) hs
  refine ⟨a, g1, dead, lib, ha, ht, hlib, ?_⟩
  unfold Goban.pushWthFeedbackU
  refine step_rd (a := twoTo1dim n.sz pt) (by rw [h.size]) (step_rd (by exact neighborsIdx_ok h.size h.good hpN) (step_rd (by exact ea) ?_))
  rw [U.bind_ok (U.of_toM (show U.toM _ g = .ok (dead, g1) by rw [U.toM_foldlM (Goban.take_toM dbg _), e1]; rfl))]
  exact U.bind_error e2

theorem ghost_getColorIdx {g : Goban} (h : Rep g) {p i : Nat} {c : Color} {lib : Liberties} (hi : i < 361) :
    (ghostBoard g p c lib).getColorIdx i = .ok (g.col i) := by
  rw [← h.getColorIdx hi]
  unfold Goban.getColorIdx
  rw [show (ghostBoard g p c lib).boardAt i = g.boardAt i from rfl, h.boardAt hi, ok_bind, ok_bind]
  cases hb : g.bd i with
  | none => rfl
  | some k =>
    obtain ⟨grp, hg⟩ := h.live i k hb
    have : (ghostBoard g p c lib).ch k = some grp := by
      have hlt := Goban.ch_lt hg
      unfold Goban.ch at hg ⊢
      show ((g.chains ++ _)[k]?).join = _
      rw [List.getElem?_append_left hlt, hg]
    dsimp only
    rw [Goban.chainAt_ok hg, Goban.chainAt_ok this]

theorem left_of_push {g : Goban} {pt : Coord} {c : Color} (h : Inv n g) (hpt : OnBoard n pt)
    (hfull : g.chains.length = 65535) {a : Goban.Around} {g1 : Goban} {dead : List Nat} {lib : Liberties}
    (ha : AroundOK g c (nbrs n (twoTo1dim n.sz pt)) a) (ht : Took g g1 (twoTo1dim n.sz pt) a.opp dead) :
    Leftover n pt c g (ghostBoard g1 (twoTo1dim n.sz pt) c lib) := by
  have hch : ∀ k grp, g.ch k = some grp → ∃ l', l'.length = 46 ∧ g1.ch k = some { grp with liberties := l' } ∧
      ∀ x, has x l' = (has x grp.liberties && !(decide (x = twoTo1dim n.sz pt) && decide (grp.color ≠ c))) := by
    intro k grp hk
    by_cases hm : k ∈ a.opp
    · obtain ⟨l', h1, h2⟩ := ht.taken k hm grp hk
      obtain ⟨j, hj, hbj, hcj⟩ := (ha.opp k).1 hm
      rw [col_of_bd hbj hk] at hcj
      have hne : grp.color ≠ c := by rw [Option.some.inj hcj]; exact (Color.ne_opp c).symm
      refine ⟨l', libs_len ht.rep h1, h1, fun x => ?_⟩
      rw [h2]
      by_cases hx : x = twoTo1dim n.sz pt <;> simp [hx, hne]
    · refine ⟨grp.liberties, libs_len h.rep hk, by rw [ht.other k hm, hk], fun x => ?_⟩
      by_cases hx : x = twoTo1dim n.sz pt
      · by_cases hc : grp.color = c
        · simp [hc]
        · cases hhas : has x grp.liberties with
          | false => rfl
          | true =>
            exfalso
            apply hm
            obtain ⟨_, _, j, hj, hbj⟩ := (h.libs k grp hk x).1 hhas
            rw [hx] at hj
            refine (ha.opp k).2 ⟨j, hj, hbj, ?_⟩
            rw [col_of_bd hbj hk]
            congr 1
            cases hg : grp.color <;> cases c <;> simp_all [Color.opp]
      · simp [hx]
  have hcol : ∀ i, g1.col i = g.col i := by
    intro i
    unfold Goban.col
    rw [ht.bd]
    cases hbi : g.bd i with
    | none => rfl
    | some k =>
      obtain ⟨grp, hk⟩ := h.rep.live i k hbi
      obtain ⟨l', _, h1, _⟩ := hch k grp hk
      show (g1.ch k).map _ = (g.ch k).map _
      rw [h1, hk]; rfl
  have hnum : g1.numberOfStones = g.numberOfStones := by
    rw [ht.rep.numberOfStones, h.rep.numberOfStones, show g1.col = g.col from funext hcol]
  have hlen : g1.chains.length = 65535 := ht.clen.trans hfull
  refine ⟨ht.size, ht.hash, fun q hq => ?_, ?_, fun k grp hk => ?_, hfull, ?_, Group.newWithLiberties c (twoTo1dim n.sz pt) lib, ?_, rfl, rfl⟩
  · have hq361 := h.lt361 (twoTo1_lt h.good hq)
    unfold Goban.getColor
    rw [show (ghostBoard g1 (twoTo1dim n.sz pt) c lib).size = n.sz from ht.size.trans h.size, h.size, ghost_getColorIdx ht.rep hq361,
      h.rep.getColorIdx hq361, hcol]
  · rw [← hnum]
    unfold Goban.numberOfStones ghostBoard Groups.iter
    rw [List.filterMap_append, List.foldl_append]
    cases c <;> rfl
  · rw [live_ch] at hk
    obtain ⟨l', h0, h1, h2⟩ := hch k grp hk
    refine ⟨{ grp with liberties := l' }, ?_, rfl, rfl, fun q hq => ?_⟩
    · rw [live_ch]
      have hlt := Goban.ch_lt h1
      unfold Goban.ch at h1 ⊢
      show ((g1.chains ++ _)[k]?).join = _
      rw [List.getElem?_append_left hlt, h1]
    · have hq361 := h.lt361 (twoTo1_lt h.good hq)
      unfold Group.containsLiberty
      rw [h.size, Bits.get_ok (by rw [libs_len h.rep hk]; omega), Bits.get_ok (by rw [h0]; omega)]
      refine ⟨_, rfl, ?_⟩
      rw [h2]
      have : decide (twoTo1dim n.sz q = twoTo1dim n.sz pt) = decide (q = pt) := by
        rw [decide_eq_decide]
        exact ⟨fun e => by rw [← ptOf_twoTo1 h.good hq, ← ptOf_twoTo1 h.good hpt, e], fun e => by rw [e]⟩
      rw [this]
  · show (g1.chains ++ [_]).length = _
    rw [List.length_append, hlen]; rfl
  · unfold ghostBoard Groups.chainAt
    dsimp only
    rw [List.getElem?_append_right (by omega), hlen]
    rfl

/-- The calls that keep their value when they panic are the calls of the model: same answer, and the same board or game if they return. -/
theorem C131_same_calls (dbg : Bool) : (∀ b p c, U.toM (Goban.pushU dbg p c) b = b.push dbg p c >>= fun b' => .ok ((), b')) ∧
    (∀ g m, U.toM (Game.playU dbg m) g = g.play dbg m >>= fun g' => .ok ((), g')) ∧
    (∀ g m, U.toM (Game.tryPlayU dbg m) g = g.tryPlay dbg m) :=
  ⟨fun b p c => Goban.push_toM dbg p c b, fun g m => Game.play_toM dbg m g, fun g m => Game.tryPlay_toM dbg m g⟩

/-- **C131** for a board: a stone put on an empty point whose `push` panics is not on the board afterwards, but is counted. -/
theorem C131_push {r : Nat} {b : Goban} (h : BoardRecords dbg n r b) {p : Coord} {c : Color} (hp : OnBoard n p)
    (he : b.getColor p = .ok none) (hx : b.push dbg p c = panic) :
    ∃ b', Goban.pushU dbg p c b = .error .panic b' ∧ Leftover n p c b b' := by
  obtain ⟨h1, h2⟩ := (C87_push h hp he).2.1.1 hx
  have hI := h.inv
  have hv := (getColor_none hI hp).1 he
  have hb := (hI.view_none_iff hp).1 hv
  have hfull : b.chains.length = 65535 := by rw [h.length, h1]
  obtain ⟨a, g1, dead, lib, ha, ht, _, e⟩ := push_left (dbg := dbg) hI hp hb hfull h2
  refine ⟨ghostBoard g1 (twoTo1dim n.sz p) c lib, ?_, left_of_push hI hp hfull ha ht⟩
  unfold Goban.pushU
  exact step_rd (a := ()) (debugAssert_true (by rw [hI.size]; exact decide_eq_true hp.1))
    (step_rd (a := ()) (debugAssert_true (by rw [hI.size]; exact decide_eq_true hp.2)) (U.bind_error e))

variable {m0 r0 r : Nat} {g0 g : Game}

/-- The game that a `play` leaves whose stone cannot be recorded. -/
theorem play_left (hI : Inv n g.goban) (hh : ∀ b ∈ g.history, Inv n b) {x y : Nat} (hp : OnBoard n (x, y))
    (he : g.goban.getColor (x, y) = .ok none) (hs : g.goban.chains.length = 65535) (hj : ¬ Joins n g.goban.view (x, y) g.turn) :
    ∃ hist b', historyInsert g.history g.goban = .ok hist ∧ Leftover n (x, y) g.turn g.goban b' ∧
      Goban.pushWthFeedbackU dbg (x, y) g.turn g.goban = .error .panic b' ∧
      Game.playU dbg (.play x y) g = .error .panic { g with history := hist, goban := b' } := by
  obtain ⟨hist, el, _⟩ := historyInsert_ok hI g.history hh
  have hb := (hI.view_none_iff hp).1 ((getColor_none hI hp).1 he)
  obtain ⟨a, g1, dead, lib, ha, ht, _, e⟩ := push_left (dbg := dbg) hI hp hb hs hj
  refine ⟨hist, ghostBoard g1 (twoTo1dim n.sz (x, y)) g.turn lib, el, left_of_push hI hp hs ha ht, e, ?_⟩
  unfold Game.playU
  refine step_st (s' := { g with history := hist }) (by rw [el]; rfl) (step_rd (a := g.turn) rfl ?_)
  refine U.bind_error ?_
  unfold Game.onGoban
  dsimp only
  rw [e]

/-- **C131** for `play` on an empty point of the board: what is left when it panics. -/
theorem C131_play (hf : Fresh dbg n m0 g0) (hb : BoardRecords dbg n r0 g0.goban) (h : Records dbg n g0 r0 r g) {x y : Nat}
    (hp : OnBoard n (x, y)) (he : g.goban.getColor (x, y) = .ok none) (hx : g.play dbg (.play x y) = panic) :
    ∃ hist b', historyInsert g.history g.goban = .ok hist ∧ Leftover n (x, y) g.turn g.goban b' ∧
      Game.playU dbg (.play x y) g = .error .panic { g with history := hist, goban := b' } := by
  have hst := (h.stuck hf hb).2 ((C87_play hf hb h hp he).1.1 hx)
  obtain ⟨hist, b', h1, h2, _, h3⟩ := play_left (dbg := dbg) (h.inv hf).1 (h.inv hf).2 hp he hst.1 hst.2
  exact ⟨hist, b', h1, h2, h3⟩

/-- **C131** for a third pass: the panicking `play` changes nothing. -/
theorem C131_pass (dbg : Bool) {g : Game} (hx : g.play dbg .pass = panic) : Game.playU dbg .pass g = .error .panic g := by
  unfold Game.playU
  refine U.bind_error ?_
  unfold rd
  unfold Game.play at hx
  cases hpas : decide (g.passes < 2) with
  | true => rw [hpas] at hx; cases hx
  | false => simp [hpas, assertM, panic]

/-- **C131** for `try_play` on any point of the board: what is left when it panics. If the panic comes while the move is tried out for
super-ko the game is unchanged; otherwise the position is in the history and the board is as after a panicking `push`, and nothing else has
changed: not the turn, the passes, the prisoners, the ko point, the outcome, the rule or the handicap. -/
theorem C131_try_play (hf : Fresh dbg n m0 g0) (hb : BoardRecords dbg n r0 g0.goban) (h : Records dbg n g0 r0 r g) {x y : Nat}
    (hp : OnBoard n (x, y)) (hx : g.tryPlay dbg (.play x y) = panic) :
    ((g.rule.flagIllegal.superko = true ∧ 2 < g.history.length ∧ g.willCapture dbg (x, y) = .ok true) →
      Game.tryPlayU dbg (.play x y) g = .error .panic g) ∧
    (¬ (g.rule.flagIllegal.superko = true ∧ 2 < g.history.length ∧ g.willCapture dbg (x, y) = .ok true) →
      ∃ hist b', historyInsert g.history g.goban = .ok hist ∧ Leftover n (x, y) g.turn g.goban b' ∧
        Game.tryPlayU dbg (.play x y) g = .error .panic { g with history := hist, goban := b' }) := by
  obtain ⟨h1, h2, h3, h4⟩ := (C87_try_play hf hb h hp).1.1 hx
  have hI := (h.inv hf).1
  have hh := (h.inv hf).2
  have hst := (h.stuck hf hb (p := (x, y))).2 ⟨h1, h2⟩
  obtain ⟨o, s1, s2, s3⟩ := checkPointBy_split (dbg := dbg) hI hp g.rule.flagIllegal
  rw [h4] at s1; cases s1
  have he := s3 rfl
  obtain ⟨c1, c2, c3⟩ := checkPointBy_stuck (dbg := dbg) hI hh hp g.rule.flagIllegal
  constructor
  · intro hsk
    have hpan := c2.2 ⟨hst, hsk.1, hsk.2.1, hsk.2.2, h4⟩
    unfold Game.tryPlayU
    refine step_rd (a := g.passes) rfl ?_
    rw [if_neg h3]
    refine step_rd (a := none) he ?_
    simp only [ne_eq, not_true_eq_false, if_false]
    refine U.bind_error ?_
    unfold rd Game.checkPoint
    dsimp only
    rw [hpan]; rfl
  · intro hsk
    have hok : g.checkPoint dbg (x, y) = .ok none := by
      rcases c1 with ⟨o, e⟩ | e
      · have := c3 hst o e
        rw [h4] at this; cases this
        exact e
      · obtain ⟨_, k1, k2, k3, _⟩ := c2.1 e
        exact absurd ⟨k1, k2, k3⟩ hsk
    obtain ⟨hist, b', k1, k2, _, k3⟩ := play_left (dbg := dbg) hI hh hp he hst.1 hst.2
    refine ⟨hist, b', k1, k2, ?_⟩
    unfold Game.tryPlayU
    refine step_rd (a := g.passes) rfl ?_
    rw [if_neg h3]
    refine step_rd (a := none) he ?_
    simp only [ne_eq, not_true_eq_false, if_false]
    refine step_rd (a := none) hok ?_
    exact U.bind_error k3

end Model
