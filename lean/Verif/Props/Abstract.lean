import Verif.Props.Ko
import Verif.Proofs.Seen
import Verif.Proofs.Swap
/-!
# Whole games: C49, C44, C43 and the exact ko test (C14)
-/

namespace Model
open Spec (OnBoard Adj Linked HasLiberty NoDead place SameOn Pos Suicide State)

variable {dbg : Bool} {n : Dim} {m : Nat} {g : Game}

/-! ## C14, every rule and every play -/

/-- **C14**, without the restriction to plays that are not suicide: after any sequence of calls, `check_ko` says true iff the
previous call that changed the board removed exactly one stone of the player to move, at `p`, and every group next to `p`
whose only liberty is `p` is a single stone. -/
theorem C14_exact {g0 : Game} {m0 : Nat} (hf : Fresh dbg n m0 g0) (hd : NoDead n g0.goban.view) {cs : List GOp}
    (hcs : ∀ c ∈ cs, c.OnBoard n) {es : List (Option PlayError)} (e : g0.run dbg cs = .ok (es, g))
    {p : Coord} (hp : OnBoard n p) (he : g.goban.getColor p = .ok none) :
    ∃ b, g.checkKo dbg { coord := p, color := g.turn } = .ok b ∧
      (b = true ↔ Spec.KoSeen n (g0.abstractly n cs es) p) := by
  obtain ⟨m', _, hs, _, _⟩ := run_sim hf hd hcs e
  have he' := (getColor_none hs.inv hp).1 he
  exact hs.checkKo_seen hp (by rw [← hs.pos p hp]; exact he')

/-! ## C49 -/

/-- Everything a player can see of a game except its komi and history is as in the abstract state `s`; `o` is the outcome the
game was created with. -/
structure Looks (n : Dim) (o : Option EndGame) (g : Game) (s : State) : Prop where
  colours : ∀ p, OnBoard n p → g.goban.getColor p = .ok (s.pos p)
  turn : g.turn = s.turn
  passes : g.passes = s.passes
  prisoners : g.prisoners = s.prisoners
  outcome : g.outcome = (match s.resigned with
    | some c => some (.winnerByResign c)
    | none => o)
  over : g.isOver = true ↔ s.resigned ≠ none ∨ o ≠ none ∨ 2 ≤ s.passes

theorem Sim.looks {o : Option EndGame} {s : State} (h : Sim dbg n m o g s) : Looks n o g s := by
  refine ⟨fun p hp => by rw [h.inv.getColor_view hp, h.pos p hp], h.turn, h.passes, h.prisoners, h.outcome, ?_⟩
  unfold Game.isOver
  rw [h.outcome, h.passes]
  cases s.resigned with
  | some c => simp
  | none => cases o <;> simp

/-- **C49**, the textbook game. Under a rule that forbids suicide, or does not forbid ko (in particular under both rules of
the crate): for every sequence of calls from a fresh game, the answers are those of the abstract game, and at the end the
game looks like the state of the abstract game. -/
theorem C49_refines {g0 : Game} {m0 : Nat} (hf : Fresh dbg n m0 g0) (hd : NoDead n g0.goban.view)
    (hr : g0.rule.flagIllegal.suicide = true ∨ g0.rule.flagIllegal.ko = false) {cs : List GOp}
    (hcs : ∀ c ∈ cs, c.OnBoard n) {es : List (Option PlayError)} (e : g0.run dbg cs = .ok (es, g)) :
    es.map toAnswer = (Spec.run n g0.rule.flagIllegal.forbidden (.start g0.goban.view g0.turn) (cs.map GOp.call)).1 ∧
    Looks n g0.outcome g (Spec.run n g0.rule.flagIllegal.forbidden (.start g0.goban.view g0.turn) (cs.map GOp.call)).2 := by
  obtain ⟨h1, ⟨m', _, h2⟩, _⟩ := Sim.run cs (hf.sim hd) (Nat.zero_le _) hr hcs e
  exact ⟨h1, h2.looks⟩

/-- **C49** under every rule: the same with the crate's ko test, spelled out on positions, in place of the textbook one (they
agree on plays that are not suicide, `C14_check_ko`). -/
theorem C49_refines_every_rule {g0 : Game} {m0 : Nat} (hf : Fresh dbg n m0 g0) (hd : NoDead n g0.goban.view) {cs : List GOp}
    (hcs : ∀ c ∈ cs, c.OnBoard n) {es : List (Option PlayError)} (e : g0.run dbg cs = .ok (es, g)) :
    es.map toAnswer = (Spec.runSeen n g0.rule.flagIllegal.forbidden (.start g0.goban.view g0.turn) (cs.map GOp.call)).1 ∧
    Looks n g0.outcome g (Spec.runSeen n g0.rule.flagIllegal.forbidden (.start g0.goban.view g0.turn) (cs.map GOp.call)).2 := by
  obtain ⟨h1, ⟨m', _, h2⟩, _⟩ := Sim.run_seen cs (hf.sim hd) (Nat.zero_le _) hcs e
  exact ⟨h1, h2.looks⟩

/-- **C49** under every rule, in the words of the property: the game looks like the abstract game run on the accepted calls. -/
theorem C49_accepted {g0 : Game} {m0 : Nat} (hf : Fresh dbg n m0 g0) (hd : NoDead n g0.goban.view) {cs : List GOp}
    (hcs : ∀ c ∈ cs, c.OnBoard n) {es : List (Option PlayError)} (e : g0.run dbg cs = .ok (es, g)) :
    Looks n g0.outcome g (g0.abstractly n cs es) := by
  obtain ⟨m', _, hs, _, _⟩ := run_sim hf hd hcs e
  exact hs.looks

/-- **C49**, the sequence always runs through: no panic as long as the stones put in the life of the board stay below the
16-bit limit (see C27). -/
theorem C49_total {g0 : Game} {m0 : Nat} (hf : Fresh dbg n m0 g0) (hd : NoDead n g0.goban.view) {cs : List GOp}
    (hcs : ∀ c ∈ cs, c.OnBoard n) (hm : m0 + cs.length < 65536) :
    ∃ es g, g0.run dbg cs = .ok (es, g) ∧ es.length = cs.length := by
  obtain ⟨⟨es, g⟩, e⟩ := Sim.run_total cs (hf.sim hd) (Nat.zero_le _) hcs (by omega)
  have h1 := (Sim.run_seen cs (hf.sim hd) (Nat.zero_le _) hcs e).1
  refine ⟨es, g, e, ?_⟩
  have := congrArg List.length h1
  rw [List.length_map] at this
  rw [this]
  clear this h1 e hm hcs
  generalize State.start g0.goban.view g0.turn = s
  induction cs generalizing s with
  | nil => rfl
  | cons c cs ih =>
    rw [List.map_cons]
    unfold Spec.runSeen
    rw [List.length_cons, ih, List.length_cons]

/-- Non-vacuity of C49: a sequence with a capture, a refused ko recapture, a refused occupied point, two
passes, a call refused because the game is paused, and a resumption. -/
def exWhole : List GOp := exKo ++ [.try_ (.play 1 1), .try_ (.play 1 2), .try_ .pass, .try_ (.play 3 0), .try_ .pass,
  .try_ .pass, .try_ (.play 3 3), .resume, .setKomi (.fin 0), .try_ (.resign .white)]

example : okAnd (do
    let g0 ← Game.new (.custom 4 4) JAPANESE
    g0.run true exWhole) (fun r => (r.1.drop 9 == [some .ko, some .pointNotEmpty, none, none, none, none, some .gamePaused, none,
      none, none]) && r.2.prisoners == (1, 0) && r.2.outcome == some (.winnerByResign .white)) = true := by decide +kernel

/-! ## C44 -/

/-- The call with the colours exchanged (only a resignation names a colour). -/
def GOp.swap : GOp → GOp
  | .try_ (.resign c) => .try_ (.resign c.opp)
  | c => c

/-- The outcome with the colours exchanged. -/
def EndGame.swap : EndGame → EndGame
  | .winnerByScore c k => .winnerByScore c.opp k
  | .winnerByResign c => .winnerByResign c.opp
  | .winnerByTime c => .winnerByTime c.opp
  | .winnerByForfeit c => .winnerByForfeit c.opp
  | .draw => .draw

/-- `g'` is `g` with the colours exchanged, as far as players can see. -/
structure Swapped (n : Dim) (g g' : Game) : Prop where
  colours : ∀ p, OnBoard n p → ∃ c, g.goban.getColor p = .ok c ∧ g'.goban.getColor p = .ok (swapC c)
  turn : g'.turn = g.turn.opp
  passes : g'.passes = g.passes
  prisoners : g'.prisoners = (g.prisoners.2, g.prisoners.1)
  outcome : g'.outcome = g.outcome.map EndGame.swap

theorem call_swap (c : GOp) : c.swap.call = swapCall c.call := by
  cases c with
  | try_ m => cases m <;> rfl
  | resume => rfl
  | setKomi k => rfl

theorem onBoard_swap {c : GOp} (h : c.OnBoard n) : c.swap.OnBoard n := by
  cases c with
  | try_ m => cases m <;> exact h
  | resume => exact h
  | setKomi k => exact h

theorem toAnswer_inj {a b : Option PlayError} (h : toAnswer a = toAnswer b) : a = b := by
  cases a with
  | none => exact ((toAnswer_ok.1 h.symm)).symm
  | some a =>
    cases b with
    | none => exact toAnswer_ok.1 h
    | some b => cases a <;> cases b <;> first | rfl | cases h

/-- A fresh game is in the start state of any position that looks the same on the board. -/
theorem Fresh.sim_congr (h : Fresh dbg n m g) {pos : Pos} (hv : SameOn n g.goban.view pos) (hd : NoDead n pos) :
    Sim dbg n m g.outcome g (State.start pos g.turn) := by
  have h0 := h.sim ((noDead_congr hv).2 hd)
  refine ⟨h0.board, h0.hist, hv, hd, rfl, h0.passes, h0.prisoners, rfl, ?_, ?_⟩
  · intro q
    rw [h0.ko]
    constructor <;> (rintro ⟨b, h, _⟩; cases h)
  · intro b h; cases h

/-- **C44**. Two fresh games under the same prohibitions that are colour exchanges of each other; any sequence of calls on the
one and the exchanged sequence on the other: the answers are the same, and at the end the games are colour exchanges of
each other. -/
theorem C44_colour_symmetry {g0 g0' g' : Game} {m0 m0' : Nat} (hf : Fresh dbg n m0 g0) (hf' : Fresh dbg n m0' g0')
    (hd : NoDead n g0.goban.view) (hr : g0'.rule.flagIllegal = g0.rule.flagIllegal) (h0 : Swapped n g0 g0')
    {cs : List GOp} (hcs : ∀ c ∈ cs, c.OnBoard n) {es es' : List (Option PlayError)} (e : g0.run dbg cs = .ok (es, g))
    (e' : g0'.run dbg (cs.map GOp.swap) = .ok (es', g')) : es' = es ∧ Swapped n g g' := by
  have hv : SameOn n g0'.goban.view (swapPos g0.goban.view) := by
    intro p hp
    obtain ⟨c, h1, h2⟩ := h0.colours p hp
    unfold swapPos Goban.view
    rw [h1, h2]
  obtain ⟨a1, ⟨m1, _, s1⟩, _⟩ := Sim.run_seen cs (hf.sim hd) (Nat.zero_le _) hcs e
  have hcs' : ∀ c ∈ cs.map GOp.swap, c.OnBoard n := by
    intro c hc
    obtain ⟨c0, h1, rfl⟩ := List.mem_map.1 hc
    exact onBoard_swap (hcs c0 h1)
  obtain ⟨a2, ⟨m2, _, s2⟩, _⟩ := Sim.run_seen (cs.map GOp.swap) (hf'.sim_congr hv (noDead_swap.2 hd)) (Nat.zero_le _) hcs' e'
  have hmap : (cs.map GOp.swap).map GOp.call = (cs.map GOp.call).map swapCall := by
    rw [List.map_map, List.map_map]
    exact List.map_congr_left (fun c _ => call_swap c)
  have hst : State.start (swapPos g0.goban.view) g0'.turn = swapState (State.start g0.goban.view g0.turn) := by
    rw [h0.turn]; rfl
  rw [hr, hst, hmap, runSeen_swap] at a2 s2
  constructor
  · have h3 : es'.map toAnswer = es.map toAnswer := a2.trans a1.symm
    exact (List.map_injective_iff.2 (fun _ _ h => toAnswer_inj h)) h3
  · have k1 := s1.looks
    have k2 := s2.looks
    refine ⟨fun p hp => ⟨_, k1.colours p hp, k2.colours p hp⟩, ?_, ?_, ?_, ?_⟩
    · rw [k2.turn, k1.turn]; rfl
    · rw [k2.passes, k1.passes]; rfl
    · rw [k2.prisoners, k1.prisoners]; rfl
    · rw [k2.outcome, k1.outcome]
      show (match swapC (Spec.runSeen n g0.rule.flagIllegal.forbidden (State.start g0.goban.view g0.turn) (cs.map GOp.call)).2.resigned with
        | some c => _
        | none => _) = _
      cases (Spec.runSeen n g0.rule.flagIllegal.forbidden (State.start g0.goban.view g0.turn) (cs.map GOp.call)).2.resigned with
      | some c => rfl
      | none => exact h0.outcome

/-- Non-vacuity of C44: a game in which White starts from a builder and the exchanged game; the ko capture happens in both. -/
example : okAnd (do
    let g0 ← Game.new (.custom 4 4) JAPANESE
    let g0' ← ({ GameBuilder.default with size := (4, 4), rule := JAPANESE, turn := some .white }).buildInner true
    let r ← g0.run true exWhole
    let r' ← g0'.run true (exWhole.map GOp.swap)
    .ok (r, r')) (fun r => r.1.1 == r.2.1 && r.1.2.prisoners == (1, 0) && r.2.2.prisoners == (0, 1)) = true := by decide +kernel

/-! ## C43 -/

/-- A list of distinct points of the board has at most as many elements as the board has points. -/
theorem nodup_onBoard_length {ps : List Coord} (hnd : ps.Nodup) (hon : ∀ p ∈ ps, OnBoard n p) : ps.length ≤ n.area := by
  have : ps.length ≤ (Spec.points n).length :=
    (List.subperm_of_subset hnd (fun p hp => mem_points.2 (hon p hp))).length_le
  rwa [points_length] at this

theorem putAll_black : ∀ (ps : List Coord) (pos : Pos) (q : Coord),
    putAll pos (ps.map (fun p => { coord := p, color := .black })) q = if q ∈ ps then some .black else pos q
  | [], pos, q => by simp [putAll]
  | p :: ps, pos, q => by
    have := putAll_black ps (place pos p .black) q
    unfold putAll at this ⊢
    rw [List.map_cons, List.foldl_cons, this]
    unfold place
    by_cases h1 : q ∈ ps
    · rw [if_pos h1, if_pos (by simp [h1])]
    · rw [if_neg h1]
      by_cases h2 : q = p
      · rw [if_pos h2, if_pos (by simp [h2])]
      · rw [if_neg h2, if_neg (by simp [h1, h2])]

/-- **C43**, on a new game: `put_handicap` with distinct points of the board does not panic, shows a black stone on exactly
these points, gives White the move, records the number of points and leaves the rule (with its komi) alone; all the rest is
as in a new game. -/
theorem C43_put_handicap {size : GobanSizes} {rule : Rule} {ps : List Coord} (hs : size.toSize = n.sz) (hf : n.Fits)
    (hn : n.h ≤ 19) (hw : n.w ≤ 19)
    (hnd : ps.Nodup) (hon : ∀ p ∈ ps, OnBoard n p) :
    ∃ g0 g, Game.new size rule = .ok g0 ∧ g0.putHandicap dbg ps = .ok g ∧
      (∀ p, OnBoard n p → g.goban.getColor p = .ok (if p ∈ ps then some .black else none)) ∧
      g = { g0 with goban := g.goban, turn := .white, handicap := ps.length } ∧ g.rule = rule ∧ Fresh dbg n ps.length g := by
  have e0 : ∃ b, Goban.new n.sz = .ok b := by
    unfold Goban.new
    simp [Dim.sz, hn, hw, assertM]
  obtain ⟨b, e0⟩ := e0
  have eg : Game.new size rule = .ok ⟨b, 0, (0, 0), none, .black, rule, 0, [], none⟩ := by
    unfold Game.new
    rw [hs, e0]; rfl
  have hlen := nodup_onBoard_length hnd hon
  have hsq : n.area ≤ 19 * 19 := Nat.mul_le_mul hn hw
  have hv := new_view hf e0
  rcases pushAll_total (dbg := dbg) (ps.map (fun p => { coord := p, color := .black })) (.new hf e0)
    (by rw [List.map_map]; exact (List.map_id ps).symm ▸ hnd) (by
      intro s hs
      obtain ⟨p, hp, rfl⟩ := List.mem_map.1 hs
      exact ⟨hon p hp, hv p (hon p hp)⟩) with ⟨b', e1, hb, hvb⟩ | ⟨_, h⟩
  · have e2 : Game.putHandicap dbg ⟨b, 0, (0, 0), none, .black, rule, 0, [], none⟩ ps = .ok 
        ⟨b', 0, (0, 0), none, .white, rule, ps.length, [], none⟩ := by
      unfold Game.putHandicap
      dsimp only
      rw [pushMany_eq, e1]
      rfl
    refine ⟨_, _, eg, e2, ?_, rfl, rfl, ?_⟩
    · intro p hp
      dsimp only
      rw [hb.inv.1.getColor_view hp, hvb p hp, putAll_black, hv p hp]
    · have := Fresh.handicap (.new hf hs eg : Fresh dbg n 0 _) hnd (fun p hp => by
        refine ⟨hon p hp, ?_⟩
        exact (getColor_none (Board.new hf e0 : Board dbg n 0 b).inv.1 (hon p hp)).2 (hv p (hon p hp))) e2
      rwa [Nat.zero_add] at this
  · rw [List.length_map] at h; omega

/-- **C43**. For a non-empty list of points (whatever the points, on the board or not, distinct or not), `put_handicap` on a new
game and the builder's `put_handicap` do exactly the same: the same game, or the same panic. -/
theorem C43_same_as_builder {size : GobanSizes} {rule : Rule} {ps : List Coord} (hps : ps ≠ []) :
    (do let g ← Game.new size rule; g.putHandicap dbg ps) =
      (((GameBuilder.default.setSize size.toSize).setRule rule).putHandicap ps).buildInner dbg := by
  unfold Game.new Game.putHandicap GameBuilder.buildInner GameBuilder.start
  simp only [GameBuilder.putHandicap, GameBuilder.setRule, GameBuilder.setSize, GameBuilder.default]
  cases Goban.new size.toSize with
  | error e => rfl
  | ok b =>
    simp only [ok_bind]
    rw [show b.pushMany dbg ps .black = ps.foldlM (fun g p => Goban.push dbg g p .black) b from rfl]
    cases ps.foldlM (fun g p => Goban.push dbg g p .black) b with
    | error e => rfl
    | ok b' =>
      have hl : ps.length ≠ 0 := fun h => hps (List.length_eq_zero_iff.1 h)
      simp [ok_bind, hl]

/-- **C43** for the empty list: the two differ (the builder leaves the move to Black). -/
theorem C43_empty_differs {size : GobanSizes} {rule : Rule} {g g' : Game}
    (e : (do let g ← Game.new size rule; g.putHandicap dbg []) = .ok g)
    (e' : (((GameBuilder.default.setSize size.toSize).setRule rule).putHandicap []).buildInner dbg = .ok g') :
    g.turn = .white ∧ g'.turn = .black ∧ g'.goban = g.goban := by
  unfold Game.new at e
  simp only [GameBuilder.buildInner, GameBuilder.start, GameBuilder.putHandicap, GameBuilder.setRule, GameBuilder.setSize,
    GameBuilder.default] at e'
  cases h : Goban.new size.toSize with
  | error x => rw [h] at e; cases e
  | ok b =>
    rw [h] at e e'
    cases e
    cases e'
    exact ⟨rfl, rfl, rfl⟩

/-- Non-vacuity of C43: two handicap stones on 9 × 9, and the builder with no points. -/
example : okAnd (do
    let g ← Game.new .nine JAPANESE
    let g ← g.putHandicap true [(2, 2), (6, 6)]
    let g' ← (((GameBuilder.default.setSize (9, 9)).setRule JAPANESE).putHandicap []).buildInner true
    .ok (g, g')) (fun r => r.1.turn == .white && r.1.handicap == 2 && r.1.goban.numberOfStones == (2, 0) &&
      r.2.turn == .black) = true := by decide +kernel

end Model
