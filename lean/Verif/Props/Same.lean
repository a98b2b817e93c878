import Verif.Props.Score
import Verif.Props.Abstract
import Verif.Props.Flow
import Verif.Props.Board
import Verif.Props.Symmetry
import Verif.Props.RectMoves
import Verif.Proofs.Groups
import Verif.Proofs.Lists
/-!
# Boards and games are determined by what they show: C61, C62
-/

namespace Model
open Spec (OnBoard Adj Linked HasLiberty NoDead place SameOn Pos Suicide State)

variable {dbg dbg' : Bool} {n : Dim} {m m' : Nat} {g g' : Game}

/-! ## C61 -/

/-- **C61**. Equal boards have the same groups, with the same liberties, however the boards came about. -/
theorem C61_same_groups {a b : Goban} (ha : Board dbg n m a) (hb : Board dbg' n m' b) (he : a.beq b = .ok true) {p : Coord} {c : Color}
    (hp : OnBoard n p) (hc : a.getColor p = .ok (some c)) :
    ∃ ka kb ga gb la lb, a.chains.chainAt ka = .ok ga ∧ b.chains.chainAt kb = .ok gb ∧
      a.chainStonesIdx dbg ka = .ok la ∧ b.chainStonesIdx dbg' kb = .ok lb ∧ { coord := p, color := c } ∈ la ∧ la.Perm lb ∧
      ga.libertiesVec = gb.libertiesVec ∧ ga.color = gb.color ∧ ga.numStones = gb.numStones := by
  obtain ⟨r, e2, hr⟩ := beq_ok ha.inv.1 hb.inv.1
  have hsame : SameOn n a.view b.view := hr.1 (by rw [he] at e2; exact (Except.ok.inj e2).symm)
  rw [ha.inv.1.getColor_view hp] at hc
  have hc := Except.ok.inj hc
  obtain ⟨ka, ga, a1, a2, a3⟩ := ha.inv.1.view_some hp hc
  obtain ⟨kb, gb, b1, b2, _⟩ := hb.inv.1.view_some hp ((hsame p hp).symm.trans hc)
  obtain ⟨la, hla⟩ := group_spec (dbg := dbg) ha.inv.1 a2
  obtain ⟨lb, hlb⟩ := group_spec (dbg := dbg') hb.inv.1 b2
  obtain ⟨h1, h2, h3, h4⟩ := same_groups ha.inv.1 hb.inv.1 hsame hp a1 b1 a2 b2 hla hlb
  exact ⟨ka, kb, ga, gb, la, lb, live_ch.2 a2, live_ch.2 b2, hla.stones, hlb.stones,
    hla.mem_stone ((hla.mem p).2 ⟨hp, a1⟩) a3.symm, h1, h2, h3, h4⟩

/-- **C61**. A board can be rebuilt from the list of its stones, put in any order on a new board. -/
theorem C61_rebuild {b : Goban} (h : Board dbg n m b) : ∃ l, b.getStones = .ok l ∧ ∀ l', l.Perm l' →
    ∃ b0 b', Goban.new n.sz = .ok b0 ∧ l'.foldlM (fun g s => g.pushStone dbg' s) b0 = .ok b' ∧ Board dbg' n l.length b' ∧
      b'.beq b = .ok true := by
  have hI := h.inv.1
  refine ⟨_, getStones_ok hI, ?_⟩
  intro l' hp
  obtain ⟨b0, e0⟩ := hI.good.new
  have hf := hI.good.fits
  have hmem : ∀ s : Stone, s ∈ (Spec.points n).filterMap (fun p => (b.view p).map (fun c => ({ coord := p, color := c } : Stone))) ↔
      OnBoard n s.coord ∧ b.view s.coord = some s.color := by
    intro s
    rw [List.mem_filterMap]
    constructor
    · rintro ⟨p, hp, e⟩
      obtain ⟨c, h1, rfl⟩ := Option.map_eq_some_iff.1 e
      exact ⟨mem_points.1 hp, h1⟩
    · rintro ⟨h1, h2⟩
      exact ⟨s.coord, mem_points.2 h1, by rw [h2]; rfl⟩
  have hmap : ∀ l : List Coord, ((l.filterMap (fun p => (b.view p).map (fun c => ({ coord := p, color := c } : Stone)))).map Stone.coord).Sublist l := by
    intro l
    induction l with
    | nil => exact List.Sublist.slnil
    | cons p l ih =>
      rw [List.filterMap_cons]
      cases b.view p with
      | none => exact ih.cons p
      | some c => exact ih.cons_cons p
  have hnd : (l'.map Stone.coord).Nodup := (hp.map Stone.coord).nodup_iff.1 ((hmap _).nodup (points_nodup n))
  have hlen : l'.length ≤ n.area := by
    rw [← hp.length_eq, ← List.length_map (f := Stone.coord), ← points_length n]
    exact (hmap _).length_le
  have hsq : n.area ≤ 19 * 19 := hI.good.area_le
  rcases pushAll_total (dbg := dbg') l' (.new hf e0) hnd (fun s hs => by
      have := ((hmem s).1 (hp.mem_iff.2 hs)).1
      exact ⟨this, new_view hf e0 _ this⟩) with ⟨b', e1, hb', hv⟩ | ⟨_, h'⟩
  swap
  · omega
  refine ⟨b0, b', e0, e1, by rw [hp.length_eq]; simpa using hb', ?_⟩
  obtain ⟨r, e2, hr⟩ := beq_ok hb'.inv.1 hI
  rw [e2, hr.2]
  intro q hq
  rw [hv q hq]
  cases hbq : b.view q with
  | some c =>
    exact (putAll_apply l' b0.view q hnd).1 { coord := q, color := c } (hp.mem_iff.1 ((hmem _).2 ⟨hq, hbq⟩)) rfl
  | none =>
    rw [(putAll_apply l' b0.view q hnd).2, new_view hf e0 q hq]
    rintro hm
    obtain ⟨s, hs, rfl⟩ := List.mem_map.1 hm
    have := ((hmem s).1 (hp.mem_iff.2 hs)).2
    rw [hbq] at this
    cases this

/-- Non-vacuity of C61: a board with a removed group and a dead white corner stone, rebuilt backwards. -/
example : ∃ b, Board true 3 8 b ∧ okAnd (do
    let l ← b.getStones
    let b0 ← Goban.new (3, 3)
    let b' ← l.reverse.foldlM (fun g s => g.pushStone true s) b0
    let r ← b'.beq b
    .ok (l.length, r, decide (b'.chains.length = b.chains.length))) (fun r => r == (7, true, false)) = true :=
  mkBoard_exists (l := exScript) (by decide +kernel)

/-! ## C62 -/

/-- Two games show the same: equal boards, the same player to move, passes, prisoners and recorded result, the same forbidden moves
and ko point, and histories whose entries are equal one by one. -/
structure SameGame (g g' : Game) : Prop where
  goban : g.goban.beq g'.goban = .ok true
  turn : g.turn = g'.turn
  passes : g.passes = g'.passes
  prisoners : g.prisoners = g'.prisoners
  outcome : g.outcome = g'.outcome
  illegal : g.rule.flagIllegal = g'.rule.flagIllegal
  koPoint : g.koPoint = g'.koPoint
  historyLength : g.history.length = g'.history.length
  history : ∀ (i : Nat) a b, g.history[i]? = some a → g'.history[i]? = some b → a.beq b = .ok true

theorem Matches.pair {n : Dim} : ∀ {as bs : List Goban} {ps : List Pos}, Matches n as ps → Matches n bs ps →
    ∀ (i : Nat) a b, as[i]? = some a → bs[i]? = some b → a.beq b = .ok true
  | [], _, _, _, _, i, a, b, e, _ => by simp at e
  | x :: as, [], [], h, _, _, _, _, _, _ => by cases h
  | x :: as, [], p :: ps, _, h, _, _, _, _, _ => by cases h
  | x :: as, y :: bs, [], h, _, _, _, _, _, _ => by cases h
  | x :: as, y :: bs, p :: ps, h, h', i, a, b, e, e' => by
    cases i with
    | zero =>
      cases e; cases e'
      obtain ⟨r, e2, hr⟩ := beq_ok h.1 h'.1
      rw [e2, hr.2 (SameOn.trans h.2.1 (SameOn.symm h'.2.1))]
    | succ i => exact Matches.pair h.2.2 h'.2.2 i a b e e'

theorem Matches.of_pair {n : Dim} : ∀ {as bs : List Goban} {ps : List Pos}, Matches n as ps → (∀ b ∈ bs, Inv n b) →
    as.length = bs.length → (∀ (i : Nat) a b, as[i]? = some a → bs[i]? = some b → a.beq b = .ok true) → Matches n bs ps
  | [], [], [], _, _, _, _ => trivial
  | [], [], _ :: _, h, _, _, _ => by cases h
  | [], _ :: _, _, _, _, hl, _ => by simp at hl
  | _ :: _, [], _, _, _, hl, _ => by simp at hl
  | _ :: _, _ :: _, [], h, _, _, _ => by cases h
  | x :: as, y :: bs, p :: ps, h, hi, hl, hp => by
    refine ⟨hi y (by simp), ?_, Matches.of_pair h.2.2 (fun b hb => hi b (by simp [hb])) (by simpa using hl)
      (fun i a b e e' => hp (i + 1) a b e e')⟩
    obtain ⟨r, e2, hr⟩ := beq_ok h.1 (hi y (by simp))
    have e3 := hp 0 x y rfl rfl
    rw [e3] at e2
    exact SameOn.trans (SameOn.symm (hr.1 (Except.ok.inj e2).symm)) h.2.1

theorem Sim.same {o : Option EndGame} {s : State} (h : Sim dbg n m o g s) (h' : Sim dbg' n m' o g' s)
    (hf : g.rule.flagIllegal = g'.rule.flagIllegal) : SameGame g g' := by
  refine ⟨?_, h.turn.trans h'.turn.symm, h.passes.trans h'.passes.symm, h.prisoners.trans h'.prisoners.symm,
    h.outcome.trans h'.outcome.symm, hf, ?_, h.hist.length.trans h'.hist.length.symm, h.hist.pair h'.hist⟩
  · obtain ⟨r, e2, hr⟩ := beq_ok h.inv h'.inv
    rw [e2, hr.2 (SameOn.trans h.pos (SameOn.symm h'.pos))]
  · have key : ∀ q, g.koPoint = some q ↔ g'.koPoint = some q := fun q => (h.ko q).trans (h'.ko q).symm
    cases hk : g.koPoint with
    | some q => exact ((key q).1 hk).symm
    | none =>
      cases hk' : g'.koPoint with
      | none => rfl
      | some q => rw [(key q).2 hk'] at hk; cases hk

theorem Sim.transfer {o o' : Option EndGame} {s s' : State} (h : Sim dbg n m o g s) (h' : Sim dbg' n m' o' g' s') (hs : SameGame g g') :
    Sim dbg' n m' o g' s := by
  obtain ⟨r, e2, hr⟩ := beq_ok h.inv h'.inv
  rw [hs.goban] at e2
  refine ⟨h'.board, h.hist.of_pair h'.hist.inv hs.historyLength hs.history,
    SameOn.trans (SameOn.symm (hr.1 (Except.ok.inj e2).symm)) h.pos, h.noDead, hs.turn ▸ h.turn, hs.passes ▸ h.passes,
    hs.prisoners ▸ h.prisoners, hs.outcome ▸ h.outcome, ?_, ?_⟩
  · rw [← hs.koPoint]; exact h.ko
  · rw [← hs.illegal]; exact h.bef

/-- **C62**. Games that show the same answer every sequence of calls in the same way and still show the same afterwards, in
whatever way they were reached and in whichever build profile each of them runs. (A run can only fail to return because the group
table of that game is full, see C27.) -/
theorem C62_same_future (h : Legal dbg n m g) (h' : Legal dbg' n m' g') (hs : SameGame g g') {cs : List GOp}
    (hcs : ∀ c ∈ cs, c.OnBoard n) {es es' : List (Option PlayError)} {k k' : Game} (e : g.run dbg cs = .ok (es, k))
    (e' : g'.run dbg' cs = .ok (es', k')) : es = es' ∧ SameGame k k' := by
  obtain ⟨o, s, m1, _, hps, hsim⟩ := h.sim
  obtain ⟨o', s', m1', _, hps', hsim'⟩ := h'.sim
  have hsim' := hsim.transfer hsim' hs
  obtain ⟨a1, ⟨_, _, a2⟩, a3, _⟩ := Sim.run_seen cs hsim hps hcs e
  obtain ⟨b1, ⟨_, _, b2⟩, b3, _⟩ := Sim.run_seen cs hsim' hps hcs e'
  rw [← hs.illegal] at b1 b2
  refine ⟨?_, a2.same b2 (by rw [a3, b3, hs.illegal])⟩
  have : es.map toAnswer = es'.map toAnswer := a1.trans b1.symm
  exact List.map_injective_iff.2 (fun a b => toAnswer_inj) this

/-- **C62**. Games that show the same have the same legal moves, under every set of forbidden moves. -/
theorem C62_legals (h : Legal dbg n m g) (h' : Legal dbg' n m' g') (hm : m < 65535) (hm' : m' < 65535) (hs : SameGame g g')
    (r : IllegalRules) : ∃ l, g.legalsBy dbg r = .ok l ∧ g'.legalsBy dbg' r = .ok l := by
  obtain ⟨o, s, m1, hm1, hps, hsim⟩ := h.sim
  obtain ⟨o', s', m1', hm1', hps', hsim'⟩ := h'.sim
  have hsim' := hsim.transfer hsim' hs
  obtain ⟨m2, hm2, hr⟩ := h.reach
  obtain ⟨m2', hm2', hr'⟩ := h'.reach
  obtain ⟨l, e, hl⟩ := (C91_legals_by hr r).total (by omega)
  obtain ⟨l', e', hl'⟩ := (C91_legals_by hr' r).total (by omega)
  refine ⟨l, e, ?_⟩
  rw [e', hl, hl']
  congr 1
  apply List.filter_congr
  intro p hp
  have hp := ((mem_scan hr.inv.good).1 hp).1
  rw [decide_eq_decide, hsim.inv.getColor_view hp, hsim'.inv.getColor_view hp, hsim.pos p hp, hsim'.pos p hp]
  cases hsp : s.pos p with
  | some c => exact iff_of_false (fun h => by cases h.1) (fun h => by cases h.1)
  | none =>
    obtain ⟨a, ea, ha⟩ := (hsim.checkPointBy_seen hp hsp r).total (fun hf => by have := hsim.full hf; omega)
    obtain ⟨b, eb, hb⟩ := (hsim'.checkPointBy_seen hp hsp r).total (fun hf => by have := hsim'.full hf; omega)
    rw [ea, eb, ha, hb]

/-- Non-vacuity of C62: handicap stones put in two orders, in a debug and in a release build. The games show the same though the
groups are numbered differently. -/
example : ∃ g g', Legal true 3 3 g ∧ Legal false 3 3 g' ∧ SameGame g g' ∧ g.goban.chains ≠ g'.goban.chains := by
  have key : okAnd (do
      let g0 ← Game.new (.custom 3 3) JAPANESE
      let g ← g0.putHandicap true [(0, 0), (0, 1), (2, 2)]
      let g' ← g0.putHandicap false [(2, 2), (0, 1), (0, 0)]
      let r ← g.goban.beq g'.goban
      .ok (g0, g, g', r)) (fun r => r.2.2.2 && decide (r.2.1.turn = r.2.2.1.turn) && decide (r.2.1.passes = r.2.2.1.passes) &&
        decide (r.2.1.prisoners = r.2.2.1.prisoners) && decide (r.2.1.outcome = r.2.2.1.outcome) &&
        decide (r.2.1.rule.flagIllegal = r.2.2.1.rule.flagIllegal) && decide (r.2.1.koPoint = r.2.2.1.koPoint) &&
        r.2.1.history.isEmpty && r.2.2.1.history.isEmpty &&
        decide (r.2.1.goban.chains ≠ r.2.2.1.goban.chains) && r.2.1.goban.allAlive && r.2.2.1.goban.allAlive &&
        [(0, 0), (0, 1), (2, 2)].all (fun p => decide (r.1.goban.getColor p = .ok none))) = true := by decide +kernel
  obtain ⟨r, e, hc⟩ := okAnd_iff.1 key
  obtain ⟨g0, e0, e⟩ := bind_eq_ok e
  obtain ⟨g, e1, e⟩ := bind_eq_ok e
  obtain ⟨g', e2, e⟩ := bind_eq_ok e
  obtain ⟨b, e3, e⟩ := bind_eq_ok e
  cases e
  simp only [Bool.and_eq_true, decide_eq_true_eq, List.all_eq_true, List.isEmpty_iff] at hc
  obtain ⟨⟨⟨⟨⟨⟨⟨⟨⟨⟨⟨⟨rfl, c1⟩, c2⟩, c3⟩, c4⟩, c5⟩, c6⟩, c7⟩, c8⟩, c9⟩, c10⟩, c11⟩, c12⟩ := hc
  have hon : ∀ p ∈ [((0 : Nat), (0 : Nat)), (0, 1), (2, 2)], OnBoard 3 p := by decide
  have f1 : Fresh true 3 3 g := .handicap (ps := [(0, 0), (0, 1), (2, 2)]) (new_fresh (by decide) e0) (by decide)
    (fun p hp => ⟨hon p hp, c12 p hp⟩) e1
  have hsub : ∀ p ∈ [((2 : Nat), (2 : Nat)), (0, 1), (0, 0)], p ∈ [((0 : Nat), (0 : Nat)), (0, 1), (2, 2)] := by decide
  have f2 : Fresh false 3 3 g' := .handicap (ps := [(2, 2), (0, 1), (0, 0)]) (new_fresh (by decide) e0) (by decide)
    (fun p hp => ⟨hon p (hsub p hp), c12 p (hsub p hp)⟩) e2
  have r1 : Reach true 3 3 g := .fresh f1
  have r2 : Reach false 3 3 g' := .fresh f2
  refine ⟨g, g', .fresh f1 (noDead_of_allAlive r1.inv c10), .fresh f2 (noDead_of_allAlive r2.inv c11),
    ⟨e3, c1, c2, c3, c4, c5, c6, by rw [c7, c8], fun i a b h => ?_⟩, c9⟩
  rw [c7] at h
  simp at h

end Model
