import Verif.Model.Sgf
import Verif.Proofs.Groups
import Verif.Props.Game
import Verif.Props.Abstract
/-!
# The builder and the import of game records: C29, C30
-/

namespace Model
open Spec (OnBoard Adj Linked HasLiberty NoDead place SameOn Pos)

variable {dbg : Bool} {n : Dim} {m : Nat}

/-! ## C29 -/

/-- What the setters of a builder say about the game before its moves. -/
structure Says (n : Dim) (b : GameBuilder) (g : Game) : Prop where
  size : g.goban.size = b.size
  handicapStones : ∀ p ∈ b.handicapPoints, g.goban.getColor p = .ok (some .black)
  setupStones : ∀ s ∈ b.setup, g.goban.getColor s.coord = .ok (some s.color)
  empty : ∀ p, OnBoard n p → p ∉ b.handicapPoints → p ∉ b.setup.map Stone.coord → g.goban.getColor p = .ok none
  komi : g.rule.komi = b.komi.getD b.rule.komi
  illegal : g.rule.flagIllegal = b.rule.flagIllegal
  score : g.rule.flagScore = b.rule.flagScore
  handicap : g.handicap = b.handicap.getD b.handicapPoints.length
  explicitTurn : ∀ c, b.turn = some c → g.turn = c
  impliedTurn : b.turn = none → (g.turn = .white ↔ g.handicap ≠ 0)
  outcome : g.outcome = b.outcome
  passes : g.passes = 0
  prisoners : g.prisoners = (0, 0)
  noHistory : g.history = []

/-- **C29**. On a board whose width divides its height, with distinct on-board handicap and setup points, `build` makes the game its setters say,
plays all the moves on it with `play`, and leaves the default builder behind. -/
theorem C29_build {b : GameBuilder} (hs : b.size = n.sz) (hf : n.Fits) (hn : n.h ≤ 19) (hw : n.w ≤ 19)
    (hnd : (b.handicapPoints ++ b.setup.map Stone.coord).Nodup)
    (hon : ∀ p ∈ b.handicapPoints ++ b.setup.map Stone.coord, OnBoard n p) :
    ∃ g, Says n b g ∧ (b.setMoves []).build dbg = .ok (g, GameBuilder.default) ∧
      Fresh dbg n (b.handicapPoints.length + b.setup.length) g ∧
      b.build dbg = (do let g' ← b.moves.foldlM (fun g m => g.play dbg m) g; .ok (g', GameBuilder.default)) := by
  obtain ⟨b0, e0⟩ : ∃ b0, Goban.new n.sz = .ok b0 := by
    unfold Goban.new
    simp [Dim.sz, hn, hw, assertM]
  have hv := new_view hf e0
  have hsq : n.area ≤ 19 * 19 := Nat.mul_le_mul hn hw
  have hlen := nodup_onBoard_length hnd hon
  have hnd' : (b.stones.map Stone.coord).Nodup := by rw [stones_coord]; exact hnd
  rcases pushAll_total (dbg := dbg) b.stones (.new hf e0) hnd' (by
      intro s hs
      have : OnBoard n s.coord := hon _ (by rw [← stones_coord]; exact List.mem_map_of_mem hs)
      exact ⟨this, hv _ this⟩) with ⟨b1, e1, hb, hvb⟩ | ⟨_, h⟩
  · obtain ⟨g, hg⟩ : ∃ g : Game, g = ⟨b1, 0, (0, 0), b.outcome,
        b.turn.getD (if b.handicap.getD b.handicapPoints.length ≠ 0 then .white else .black),
        (match b.komi with
          | some k => { b.rule with komi := k }
          | none => b.rule), b.handicap.getD b.handicapPoints.length, [], none⟩ := ⟨_, rfl⟩
    have est : b.start dbg = .ok g := by
      rw [start_eq, hs, e0, ok_bind, e1, hg]; rfl
    have est' : (b.setMoves []).start dbg = b.start dbg := rfl
    have hI := hb.inv.1
    have hcol : ∀ s ∈ b.stones, b1.getColor s.coord = .ok (some s.color) := by
      intro s hs
      have : OnBoard n s.coord := hon _ (by rw [← stones_coord]; exact List.mem_map_of_mem hs)
      rw [hI.getColor_view this, hvb _ this, (putAll_apply b.stones _ _ hnd').1 s hs rfl]
    refine ⟨g, ?_, ?_, ?_, ?_⟩
    rotate_left
    · unfold GameBuilder.build GameBuilder.buildInner
      rw [est', est]; rfl
    · refine .build (b := b.setMoves []) hf hs rfl hnd hon ?_
      unfold GameBuilder.buildInner
      rw [est', est]; rfl
    · unfold GameBuilder.build GameBuilder.buildInner
      rw [est]; rfl
    · subst hg
      refine ⟨by rw [hs]; exact hI.size, ?_, ?_, ?_, ?_, ?_, ?_, rfl, ?_, ?_, rfl, rfl, rfl, rfl⟩
      · intro p hp
        exact hcol ⟨p, .black⟩ (by unfold GameBuilder.stones; simp [hp])
      · intro s hs
        exact hcol s (by unfold GameBuilder.stones; simp [hs])
      · intro p hp h1 h2
        dsimp only
        rw [hI.getColor_view hp, hvb _ hp, (putAll_apply b.stones _ _ hnd').2 (by
          rw [stones_coord, List.mem_append]; rintro (h | h); exacts [h1 h, h2 h]), hv _ hp]
      · cases b.komi <;> rfl
      · cases b.komi <;> rfl
      · cases b.komi <;> rfl
      · intro c hc; dsimp only; rw [hc]; rfl
      · intro hc
        dsimp only
        rw [hc]
        by_cases h0 : b.handicap.getD b.handicapPoints.length ≠ 0
        · simp [h0]
        · simp at h0; simp [h0]
  · rw [← List.length_map (f := Stone.coord), stones_coord] at h
    omega

/-- A call of a setter of the builder. -/
inductive Setter where
  | moves (l : List Move) | outcome (o : EndGame) | putHandicap (ps : List Coord) | handicap (h : Nat) | size (s : Size)
  | komi (k : F32) | turn (c : Color) | blackPlayer (s : String) | rule (r : Rule) | whitePlayer (s : String) | add (s : Stone)

/-- The builder after a call. -/
def GameBuilder.call (b : GameBuilder) : Setter → GameBuilder
  | .moves l => b.setMoves l
  | .outcome o => b.setOutcome o
  | .putHandicap ps => b.putHandicap ps
  | .handicap h => b.setHandicap h
  | .size s => b.setSize s
  | .komi k => b.setKomi k
  | .turn c => b.setTurn c
  | .blackPlayer s => b.setBlackPlayer s
  | .rule r => b.setRule r
  | .whitePlayer s => b.setWhitePlayer s
  | .add s => b.add s

namespace Setter

/-- The argument of the last call of one setter, if it was called at all. -/
def last {α} (f : Setter → Option α) (l : List Setter) : Option α := (l.filterMap f).getLast?

def moves? : Setter → Option (List Move) | .moves l => some l | _ => none
def outcome? : Setter → Option EndGame | .outcome o => some o | _ => none
def putHandicap? : Setter → Option (List Coord) | .putHandicap p => some p | _ => none
def handicap? : Setter → Option Nat | .handicap h => some h | _ => none
def size? : Setter → Option Size | .size s => some s | _ => none
def komi? : Setter → Option F32 | .komi k => some k | _ => none
def turn? : Setter → Option Color | .turn c => some c | _ => none
def rule? : Setter → Option Rule | .rule r => some r | _ => none
def add? : Setter → Option Stone | .add s => some s | _ => none

/-- The size set last, else 19 × 19. -/
def sizeOf (l : List Setter) : Size := (last size? l).getD (19, 19)
/-- The handicap points set last, else none. -/
def handicapPointsOf (l : List Setter) : List Coord := (last putHandicap? l).getD []
/-- All the stones added. -/
def stonesOf (l : List Setter) : List Stone := l.filterMap add?
/-- The rule set last, else the Chinese rule. -/
def ruleOf (l : List Setter) : Rule := (last rule? l).getD CHINESE

end Setter

theorem last_call {α} {f : Setter → Option α} {π : GameBuilder → α} (h : ∀ b c, π (b.call c) = (f c).getD (π b)) :
    ∀ (l : List Setter) (b : GameBuilder), π (l.foldl GameBuilder.call b) = (Setter.last f l).getD (π b)
  | [], _ => rfl
  | c :: l, b => by
    rw [List.foldl_cons, last_call h l, h]
    unfold Setter.last
    rw [List.filterMap_cons]
    cases f c with
    | none => rfl
    | some a => dsimp only; rw [List.getLast?_cons]; rfl

theorem last_call_option {α} {f : Setter → Option α} {π : GameBuilder → Option α} (h : ∀ b c, π (b.call c) = (f c).or (π b)) :
    ∀ (l : List Setter) (b : GameBuilder), π (l.foldl GameBuilder.call b) = (Setter.last f l).or (π b)
  | [], _ => rfl
  | c :: l, b => by
    rw [List.foldl_cons, last_call_option h l, h]
    unfold Setter.last
    rw [List.filterMap_cons]
    cases f c with
    | none => rfl
    | some a =>
      dsimp only
      rw [List.getLast?_cons]
      cases (List.filterMap f l).getLast? <;> rfl

theorem setup_call : ∀ (l : List Setter) (b : GameBuilder), (l.foldl GameBuilder.call b).setup = b.setup ++ Setter.stonesOf l
  | [], b => by simp [Setter.stonesOf]
  | c :: l, b => by
    rw [List.foldl_cons, setup_call l]
    unfold Setter.stonesOf
    rw [List.filterMap_cons]
    cases c <;> simp [GameBuilder.call, Setter.add?, GameBuilder.add, GameBuilder.setMoves, GameBuilder.setOutcome,
      GameBuilder.putHandicap, GameBuilder.setHandicap, GameBuilder.setSize, GameBuilder.setKomi, GameBuilder.setTurn,
      GameBuilder.setBlackPlayer, GameBuilder.setRule, GameBuilder.setWhitePlayer]

/-- What a sequence of setter calls on a new builder says about the game before its moves. -/
structure Said (n : Dim) (l : List Setter) (g : Game) : Prop where
  size : g.goban.size = Setter.sizeOf l
  handicapStones : ∀ p ∈ Setter.handicapPointsOf l, g.goban.getColor p = .ok (some .black)
  setupStones : ∀ s, .add s ∈ l → g.goban.getColor s.coord = .ok (some s.color)
  empty : ∀ p, OnBoard n p → p ∉ Setter.handicapPointsOf l → (∀ c, .add ⟨p, c⟩ ∉ l) → g.goban.getColor p = .ok none
  komi : g.rule.komi = (Setter.last Setter.komi? l).getD (Setter.ruleOf l).komi
  illegal : g.rule.flagIllegal = (Setter.ruleOf l).flagIllegal
  score : g.rule.flagScore = (Setter.ruleOf l).flagScore
  handicap : g.handicap = (Setter.last Setter.handicap? l).getD (Setter.handicapPointsOf l).length
  explicitTurn : ∀ c, Setter.last Setter.turn? l = some c → g.turn = c
  impliedTurn : (∀ c, .turn c ∉ l) → (g.turn = .white ↔ g.handicap ≠ 0)
  outcome : g.outcome = Setter.last Setter.outcome? l
  passes : g.passes = 0
  prisoners : g.prisoners = (0, 0)
  noHistory : g.history = []

theorem mem_stonesOf {l : List Setter} {s : Stone} : s ∈ Setter.stonesOf l ↔ .add s ∈ l := by
  unfold Setter.stonesOf
  rw [List.mem_filterMap]
  constructor
  · rintro ⟨c, hc, e⟩
    cases c <;> simp [Setter.add?] at e
    subst e; exact hc
  · intro h; exact ⟨_, h, rfl⟩

/-- **C29**, from the calls of the setters: after any sequence of calls on a default builder that gives a board whose width
divides its height and
distinct on-board points, `build` makes the game the calls say (for each setter the last call counts, stones are added), plays
on it the moves given last, and leaves the default builder behind. -/
theorem C29_setters {l : List Setter} {b : GameBuilder} (hb : b = l.foldl GameBuilder.call GameBuilder.default)
    (hs : Setter.sizeOf l = n.sz) (hf : n.Fits) (hn : n.h ≤ 19) (hw : n.w ≤ 19)
    (hnd : (Setter.handicapPointsOf l ++ (Setter.stonesOf l).map Stone.coord).Nodup)
    (hon : ∀ p ∈ Setter.handicapPointsOf l ++ (Setter.stonesOf l).map Stone.coord, OnBoard n p) :
    ∃ g, Said n l g ∧ b.build dbg = (do
      let g' ← ((Setter.last Setter.moves? l).getD []).foldlM (fun g m => g.play dbg m) g
      .ok (g', GameBuilder.default)) := by
  have size : b.size = Setter.sizeOf l := by
    rw [hb]; exact last_call (π := (·.size)) (fun b c => by cases c <;> rfl) l _
  have hps : b.handicapPoints = Setter.handicapPointsOf l := by
    rw [hb]; exact last_call (π := (·.handicapPoints)) (fun b c => by cases c <;> rfl) l _
  have rule : b.rule = Setter.ruleOf l := by
    rw [hb]; exact last_call (π := (·.rule)) (fun b c => by cases c <;> rfl) l _
  have moves : b.moves = (Setter.last Setter.moves? l).getD [] := by
    rw [hb]; exact last_call (π := (·.moves)) (fun b c => by cases c <;> rfl) l _
  have komi : b.komi = Setter.last Setter.komi? l := by
    rw [hb, last_call_option (f := Setter.komi?) (π := (·.komi)) (fun b c => by cases c <;> rfl) l _]; exact Option.or_none
  have handicap : b.handicap = Setter.last Setter.handicap? l := by
    rw [hb, last_call_option (f := Setter.handicap?) (π := (·.handicap)) (fun b c => by cases c <;> rfl) l _]; exact Option.or_none
  have turn : b.turn = Setter.last Setter.turn? l := by
    rw [hb, last_call_option (f := Setter.turn?) (π := (·.turn)) (fun b c => by cases c <;> rfl) l _]; exact Option.or_none
  have outcome : b.outcome = Setter.last Setter.outcome? l := by
    rw [hb, last_call_option (f := Setter.outcome?) (π := (·.outcome)) (fun b c => by cases c <;> rfl) l _]; exact Option.or_none
  have setup : b.setup = Setter.stonesOf l := by rw [hb, setup_call]; rfl
  obtain ⟨g, hg, _, _, e⟩ := C29_build (dbg := dbg) (b := b) (size.trans hs) hf hn hw (by rw [hps, setup]; exact hnd)
    (by rw [hps, setup]; exact hon)
  rw [moves] at e
  refine ⟨g, ⟨hg.size.trans size, by rw [← hps]; exact hg.handicapStones, ?_, ?_, ?_, ?_, ?_, ?_, ?_, ?_, ?_, hg.passes,
    hg.prisoners, hg.noHistory⟩, e⟩
  · intro s h
    exact hg.setupStones s (by rw [setup]; exact mem_stonesOf.2 h)
  · intro p hp h1 h2
    refine hg.empty p hp (by rw [hps]; exact h1) ?_
    rw [setup, List.mem_map]
    rintro ⟨⟨q, c⟩, h3, rfl⟩
    exact h2 c (mem_stonesOf.1 h3)
  · rw [hg.komi, komi, rule]
  · rw [hg.illegal, rule]
  · rw [hg.score, rule]
  · rw [hg.handicap, handicap, hps]
  · intro c hc; exact hg.explicitTurn c (by rw [turn, hc])
  · intro hc
    apply hg.impliedTurn
    rw [turn]
    unfold Setter.last
    have : l.filterMap Setter.turn? = [] := by
      rw [List.filterMap_eq_nil_iff]
      intro a ha
      cases a <;> first | rfl | exact absurd ha (hc _)
    rw [this]; rfl
  · rw [hg.outcome, outcome]

/-- Non-vacuity of `C29_setters`: setters called twice, in a mixed order. -/
example : ∃ l : List Setter, Setter.sizeOf l = (5, 5) ∧
    (Setter.handicapPointsOf l ++ (Setter.stonesOf l).map Stone.coord).Nodup ∧
    (∀ p ∈ Setter.handicapPointsOf l ++ (Setter.stonesOf l).map Stone.coord, OnBoard 5 p) ∧
    Setter.handicapPointsOf l = [(1, 1)] ∧ Setter.stonesOf l = [⟨(0, 1), .white⟩, ⟨(4, 4), .black⟩] ∧
    Setter.last Setter.komi? l = some (.fin (1 / 2)) ∧ Setter.ruleOf l = JAPANESE :=
  ⟨[.size (9, 9), .add ⟨(0, 1), .white⟩, .putHandicap [(0, 0), (2, 2)], .komi (.fin 7), .rule JAPANESE, .size (5, 5),
    .putHandicap [(1, 1)], .add ⟨(4, 4), .black⟩, .komi (.fin (1 / 2)), .blackPlayer "b"], by decide, by decide, by decide, by decide,
    by decide, rfl, rfl⟩

/-- **C29**, the moves: when `try_play` accepts them all one after the other, `build` returns the game this leads to. -/
theorem C29_legal_moves {b : GameBuilder} {g0 g : Game} (e0 : (b.setMoves []).buildInner dbg = .ok g0)
    {es : List (Option PlayError)} (e : g0.run dbg (b.moves.map .try_) = .ok (es, g)) (hes : ∀ x ∈ es, x = none) :
    b.build dbg = .ok (g, GameBuilder.default) := by
  have e0' : b.start dbg = .ok g0 := by
    unfold GameBuilder.buildInner at e0
    obtain ⟨x, e1, e2⟩ := bind_eq_ok e0
    cases e2; exact e1
  unfold GameBuilder.build GameBuilder.buildInner
  rw [e0', ok_bind]
  have : b.moves.foldlM (fun g m => g.play dbg m) g0 = .ok g := by
    clear e0 e0'
    generalize b.moves = l at e
    induction l generalizing g0 es with
    | nil => cases e; rfl
    | cons mv l ih =>
      rw [List.map_cons] at e
      unfold Game.run at e
      obtain ⟨⟨r, g1⟩, e1, e⟩ := bind_eq_ok e
      obtain ⟨⟨rs, g2⟩, e2, e⟩ := bind_eq_ok e
      cases e
      have hr : r = none := hes _ (by simp)
      subst hr
      rw [List.foldlM_cons, C13_accepted_is_play e1, ok_bind]
      exact ih (fun x hx => hes x (by simp [hx])) e2
  rw [this]; rfl

/-- A builder with three passes in a row panics, in every build and on every board. -/
theorem C29_three_passes {b : GameBuilder} {l l' : List Move} (h : b.moves = l ++ [.pass, .pass, .pass] ++ l') :
    ¬ ∃ r, b.build dbg = .ok r := by
  rintro ⟨r, e⟩
  unfold GameBuilder.build GameBuilder.buildInner at e
  obtain ⟨g1, e, _⟩ := bind_eq_ok e
  obtain ⟨g0, _, e⟩ := bind_eq_ok e
  rw [h, foldlM_append', foldlM_append'] at e
  obtain ⟨g2, e, _⟩ := bind_eq_ok e
  obtain ⟨g3, _, e⟩ := bind_eq_ok e
  simp only [List.foldlM_cons] at e
  obtain ⟨g4, e1, e⟩ := bind_eq_ok e
  obtain ⟨g5, e2, e⟩ := bind_eq_ok e
  obtain ⟨g6, e3, e⟩ := bind_eq_ok e
  unfold Game.play at e1 e2 e3
  obtain ⟨_, a1, e1⟩ := bind_eq_ok e1
  obtain ⟨_, a2, e2⟩ := bind_eq_ok e2
  obtain ⟨_, a3, e3⟩ := bind_eq_ok e3
  cases e1
  cases e2
  have := assertM_eq_ok a3
  simp at this
  omega

/-- Non-vacuity of C29: handicap, setup, komi, turn, outcome and moves (with a capture); a panic with three passes. -/
example : okAnd (do
    let b := ((((((((GameBuilder.default.setSize (5, 5)).setRule JAPANESE).putHandicap [(0, 0), (1, 1)]).add
      ⟨(0, 1), .white⟩).add ⟨(4, 4), .white⟩).setKomi (.fin (1 / 2))).setTurn .black).setOutcome .draw).setMoves
      [.play 0 2, .pass, .pass]
    let r ← b.build true
    .ok (b, r)) (fun r => r.2.1.goban.numberOfStones == (3, 1) && r.2.1.prisoners == (1, 0) && r.2.1.turn == .white &&
      r.2.1.outcome == some .draw && r.2.1.rule.komi == .fin (1 / 2) && r.2.2 == GameBuilder.default && r.1.size == (5, 5)) =
    true ∧
    (GameBuilder.default.setMoves [.play 3 3, .pass, .pass, .pass]).build true = panic := by
  constructor <;> decide +kernel

/-! ## C30 -/

namespace Sgf

/-- The values of one property in a node, in order. -/
def komis (l : List Token) : List F32 := l.filterMap (fun | .komi k => some k | _ => none)
def sizes (l : List Token) : List Size := l.filterMap (fun | .size x y => some (x, y) | _ => none)
def results (l : List Token) : List Outcome := l.filterMap (fun | .result o => some o | _ => none)
def rules (l : List Token) : List RuleSet := l.filterMap (fun | .rule r => some r | _ => none)
def handicaps (l : List Token) : List Nat := l.filterMap (fun | .handicap h => some h | _ => none)
def adds (l : List Token) : List (Color × Nat × Nat) := l.filterMap (fun | .add c x y => some (c, x, y) | _ => none)
def players (l : List Token) : List Color := l.filterMap (fun
  | .unknown k v => if k = "PL" then if v = "B" then some .black else if v = "W" then some .white else none else none
  | _ => none)
/-- The moves of a node, in order, with the player they are recorded for. -/
def movesOf (l : List Token) : List (Color × Action) := l.filterMap (fun | .move c a => some (c, a) | _ => none)

/-- A root token the library can digest: sizes fit a byte, coordinates are 1-based, the rule set is known, the game is Go and
`PL` is `B` or `W`. -/
def Token.Valid : Token → Prop
  | .size x y => x < 256 ∧ y < 256
  | .add _ x y => 1 ≤ x ∧ 1 ≤ y
  | .rule r => r ≠ .other
  | .game go => go = true
  | .unknown k v => k = "PL" → v = "B" ∨ v = "W"
  | _ => True

/-- The rule a rule set names. -/
def RuleSet.named : RuleSet → Rule
  | .japanese => JAPANESE
  | _ => CHINESE

/-- The end of a game a result names. -/
def Outcome.named : Outcome → EndGame
  | .draw => .draw
  | .winnerByPoints c p => .winnerByScore c p
  | .winnerByResign c => .winnerByResign c
  | .winnerByTime c => .winnerByTime c
  | .winnerByForfeit c => .winnerByForfeit c

theorem Outcome.toEndGame_eq : Outcome.toEndGame = Outcome.named := by funext o; cases o <;> rfl

/-- What a root node says: of repeated properties the last counts, setup stones accumulate. -/
def rootSays (l : List Token) : GameBuilder :=
  { blackPlayer := "", whitePlayer := "", handicapPoints := [], moves := []
    komi := (komis l).getLast?
    size := (sizes l).getLast?.getD (19, 19)
    outcome := (results l).getLast?.map Outcome.named
    rule := ((rules l).getLast?.map RuleSet.named).getD CHINESE
    handicap := (handicaps l).getLast?
    turn := (players l).getLast?
    setup := (adds l).map (fun a => { coord := (a.2.2 - 1, a.2.1 - 1), color := a.1 }) }

theorem getLast?_or {α} (l : List α) (x : α) (o : Option α) : (x :: l).getLast?.or o = l.getLast?.or (some x) := by
  rw [List.getLast?_cons]
  cases l.getLast? <;> rfl

theorem plTokens_eq : ∀ (l : List Token) (b : GameBuilder), (∀ t ∈ l, t.Valid) →
    l.foldlM plToken b = .ok { b with turn := (players l).getLast?.or b.turn }
  | [], b, _ => rfl
  | t :: l, b, h => by
    have ht := h t (by simp)
    have ih := fun b => plTokens_eq l b (fun t ht => h t (by simp [ht]))
    rw [List.foldlM_cons]
    cases t with
    | unknown k v =>
      by_cases hk : k = "PL"
      · rcases ht hk with hv | hv
        · subst hk; subst hv
          rw [show plToken b (.unknown "PL" "B") = .ok (b.setTurn .black) by simp [plToken], ok_bind, ih]
          have : players (.unknown "PL" "B" :: l) = .black :: players l := rfl
          rw [this, getLast?_or]; rfl
        · subst hk; subst hv
          rw [show plToken b (.unknown "PL" "W") = .ok (b.setTurn .white) by simp [plToken], ok_bind, ih]
          have : players (.unknown "PL" "W" :: l) = .white :: players l := rfl
          rw [this, getLast?_or]; rfl
      · rw [show plToken b (.unknown k v) = .ok b by simp [plToken, hk], ok_bind, ih]
        have : players (.unknown k v :: l) = players l := by simp [players, hk]
        rw [this]
    | _ => exact ih b

/-- Merge what a list of tokens says into a builder. -/
def mergeSays (l : List Token) (b : GameBuilder) (turn : Option Color) : GameBuilder :=
  { b with
    komi := (komis l).getLast?.or b.komi
    size := (sizes l).getLast?.getD b.size
    outcome := ((results l).getLast?.map Outcome.toEndGame).or b.outcome
    rule := ((rules l).getLast?.map RuleSet.named).getD b.rule
    handicap := (handicaps l).getLast?.or b.handicap
    turn := turn
    setup := b.setup ++ (adds l).map (fun a => { coord := (a.2.2 - 1, a.2.1 - 1), color := a.1 }) }

theorem map_getLast?_or {α β} (f : α → β) (l : List α) (x : α) (o : Option β) :
    ((x :: l).getLast?.map f).or o = (l.getLast?.map f).or (some (f x)) := by
  rw [List.getLast?_cons]
  cases l.getLast? <;> rfl

theorem map_getLast?_getD {α β} (f : α → β) (l : List α) (x : α) (o : β) :
    ((x :: l).getLast?.map f).getD o = (l.getLast?.map f).getD (f x) := by
  rw [List.getLast?_cons]
  cases l.getLast? <;> rfl

theorem getLast?_getD {α} (l : List α) (x : α) (o : α) : (x :: l).getLast?.getD o = l.getLast?.getD x := by
  rw [List.getLast?_cons]
  cases l.getLast? <;> rfl

/-- The loop over root tokens, the inner loop being any function that only sets the turn to `f`. -/
theorem rootTokens_eq {T : Option Color} : ∀ (l : List Token) (b : GameBuilder), (∀ t ∈ l, t.Valid) →
    l.foldlM (fun b t => do
      let b ← rootToken dbg b t
      (.ok { b with turn := T.or b.turn } : M GameBuilder)) b =
      .ok (mergeSays l b (if l = [] then b.turn else T.or b.turn))
  | [], b, _ => by simp [mergeSays, komis, sizes, results, rules, handicaps, adds]
  | t :: l, b, h => by
    have ht := h t (by simp)
    have ih := fun b => rootTokens_eq (T := T) l b (fun t ht => h t (by simp [ht]))
    have hT : ∀ o : Option Color, (if l = [] then T.or o else T.or (T.or o)) = T.or o := by
      intro o; split
      · rfl
      · cases T <;> rfl
    rw [List.foldlM_cons, if_neg (by simp)]
    cases t with
    | komi k =>
      show l.foldlM _ { b.setKomi k with turn := T.or b.turn } = _
      rw [ih]; dsimp only
      rw [hT]
      unfold mergeSays
      have : komis (.komi k :: l) = k :: komis l := rfl
      rw [this, getLast?_or]; rfl
    | size x y =>
      show l.foldlM _ { b.setSize (u8 x, u8 y) with turn := T.or b.turn } = _
      rw [ih]; dsimp only
      rw [hT]
      unfold mergeSays
      have : sizes (.size x y :: l) = (x, y) :: sizes l := rfl
      rw [this, getLast?_getD]
      unfold GameBuilder.setSize u8
      rw [Nat.mod_eq_of_lt ht.1, Nat.mod_eq_of_lt ht.2]; rfl
    | result o =>
      show l.foldlM _ { b.setOutcome o.toEndGame with turn := T.or b.turn } = _
      rw [ih]; dsimp only
      rw [hT]
      unfold mergeSays
      have : results (.result o :: l) = o :: results l := rfl
      rw [this, map_getLast?_or]; rfl
    | add c x y =>
      have e : rootToken dbg b (.add c x y) = .ok (b.add ⟨(y - 1, x - 1), c⟩) := by
        unfold rootToken subU8
        dsimp only
        rw [if_pos ht.2, ok_bind, if_pos ht.1]; rfl
      rw [e]
      show l.foldlM _ { b.add ⟨(y - 1, x - 1), c⟩ with turn := T.or b.turn } = _
      rw [ih]; dsimp only
      rw [hT]
      unfold mergeSays
      have : adds (.add c x y :: l) = (c, x, y) :: adds l := rfl
      rw [this]
      unfold GameBuilder.add
      dsimp only
      rw [List.map_cons, List.append_assoc]; rfl
    | rule r =>
      have e : rootToken dbg b (.rule r) = .ok (b.setRule r.named) := by
        cases r with
        | other => exact absurd rfl ht
        | _ => rfl
      rw [e]
      show l.foldlM _ { b.setRule r.named with turn := T.or b.turn } = _
      rw [ih]; dsimp only
      rw [hT]
      unfold mergeSays
      have : rules (.rule r :: l) = r :: rules l := rfl
      rw [this, map_getLast?_getD]; rfl
    | handicap x =>
      show l.foldlM _ { b.setHandicap x with turn := T.or b.turn } = _
      rw [ih]; dsimp only
      rw [hT]
      unfold mergeSays
      have : handicaps (.handicap x :: l) = x :: handicaps l := rfl
      rw [this, getLast?_or]; rfl
    | game go =>
      have e : rootToken dbg b (.game go) = .ok b := by
        rw [show go = true from ht]; rfl
      rw [e]
      show l.foldlM _ { b with turn := T.or b.turn } = _
      rw [ih]; dsimp only
      rw [hT]; rfl
    | move c a =>
      show l.foldlM _ { b with turn := T.or b.turn } = _
      rw [ih]; dsimp only
      rw [hT]; rfl
    | unknown k v =>
      show l.foldlM _ { b with turn := T.or b.turn } = _
      rw [ih]; dsimp only
      rw [hT]; rfl
    | other =>
      show l.foldlM _ { b with turn := T.or b.turn } = _
      rw [ih]; dsimp only
      rw [hT]; rfl

/-- **C30**, the root node: the builder is what the node says. -/
theorem C30_root_partial {root : List Token} (h : ∀ t ∈ root, t.Valid) : rootNode dbg .default root = .ok (rootSays root) := by
  have e : rootNode dbg .default root = root.foldlM (fun b t => do
      let b ← rootToken dbg b t
      (.ok { b with turn := (players root).getLast?.or b.turn } : M GameBuilder)) .default := by
    unfold rootNode
    congr 1
    funext b t
    congr 1
    funext b
    rw [plTokens_eq root b h]
  rw [e, rootTokens_eq root _ h]
  unfold mergeSays rootSays
  congr 1
  by_cases hr : root = []
  · subst hr; rfl
  · rw [if_neg hr, Outcome.toEndGame_eq]; simp [GameBuilder.default]

/-- The point of the board a record's action names: 1-based column and line. -/
def Action.point : Action → Move
  | .move col line => .play (line - 1) (col - 1)
  | .pass => .pass

/-- 1-based. -/
def Action.Valid : Action → Prop
  | .move col line => 1 ≤ col ∧ 1 ≤ line
  | .pass => True

/-- Play a record: every move by the player it is recorded for. -/
def playRecord (dbg : Bool) (g : Game) (l : List (Color × Action)) : M Game :=
  l.foldlM (fun g x => ({ g with turn := x.1 } : Game).play dbg x.2.point) g

/-- The game a main line describes. -/
def described (dbg : Bool) (root : List Token) (rest : List (List Token)) : M Game := do
  let g ← (rootSays root).buildInner dbg
  playRecord dbg g (rest.flatMap movesOf)

/-- C30 as first stated: whatever the nodes hold. -/
def C30Full : Prop := ∀ dbg root rest, (∀ t ∈ root, t.Valid) →
  (∀ x ∈ rest.flatMap movesOf, x.2.Valid) → fromNodes dbg (root :: rest) = described dbg root rest

/-- The colours alternate, beginning with `c`. -/
def Alternate : Color → List Color → Prop
  | _, [] => True
  | c, d :: l => d = c ∧ Alternate c.opp l

theorem play_turn {g g' : Game} {a : Action} (h : g.play dbg a.point = .ok g') : g'.turn = g.turn.opp := by
  cases a with
  | pass =>
    unfold Action.point Game.play at h
    obtain ⟨_, _, h⟩ := bind_eq_ok h
    cases h; rfl
  | move c l =>
    unfold Action.point Game.play at h
    obtain ⟨_, _, h⟩ := bind_eq_ok h
    obtain ⟨f, _, h⟩ := bind_eq_ok h
    obtain ⟨g1, e1, h⟩ := bind_eq_ok h
    cases h
    unfold Game.removeCapturedStones at e1
    obtain ⟨c, _, e1⟩ := bind_eq_ok e1
    cases e1
    rfl

theorem playRecord_eq : ∀ (l : List (Color × Action)) (g : Game), Alternate g.turn (l.map Prod.fst) →
    playRecord dbg g l = l.foldlM (fun g x => g.play dbg x.2.point) g
  | [], g, _ => rfl
  | x :: l, g, h => by
    obtain ⟨h1, h2⟩ := h
    unfold playRecord
    rw [List.foldlM_cons, List.foldlM_cons, h1]
    show (g.play dbg x.2.point >>= _) = _
    cases e : g.play dbg x.2.point with
    | error _ => rfl
    | ok g' =>
      rw [ok_bind, ok_bind]
      exact playRecord_eq l g' (by rw [play_turn e]; exact h2)

theorem toMove_ok {a : Action} (h : a.Valid) : a.toMove dbg = .ok a.point := by
  cases a with
  | pass => rfl
  | move c l =>
    unfold Action.toMove subU8
    dsimp only
    rw [if_pos h.2, ok_bind, if_pos h.1]; rfl

theorem nodeMoves_eq : ∀ (rest : List (List Token)),
    (∀ node ∈ rest, movesOf node.tail = []) → (∀ x ∈ rest.flatMap movesOf, x.2.Valid) →
    ∃ ms, rest.mapM (nodeMove dbg) = (.ok ms : M _) ∧ ms.filterMap id = (rest.flatMap movesOf).map (fun x => x.2.point)
  | [], _, _ => ⟨[], rfl, rfl⟩
  | node :: rest, h1, h2 => by
    obtain ⟨ms, e, hm⟩ := nodeMoves_eq rest (fun x hx => h1 x (by simp [hx])) (fun x hx => h2 x (by
      rw [List.flatMap_cons, List.mem_append]; exact Or.inr hx))
    rw [List.mapM_cons, List.flatMap_cons, e]
    have ht := h1 node (by simp)
    have h2' := fun x (hx : x ∈ movesOf node) => h2 x (by rw [List.flatMap_cons, List.mem_append]; exact Or.inl hx)
    cases node with
    | nil => exact ⟨none :: ms, rfl, by simpa [movesOf] using hm⟩
    | cons t node =>
      rw [List.tail_cons] at ht
      cases t with
      | move c a =>
        have e1 : movesOf (.move c a :: node) = [(c, a)] := by
          show (c, a) :: movesOf node = _
          rw [ht]
        rw [e1] at h2' ⊢
        unfold nodeMove
        dsimp only
        rw [toMove_ok (h2' (c, a) (by simp))]
        exact ⟨some a.point :: ms, rfl, by simpa using hm⟩
      | _ =>
        refine ⟨none :: ms, rfl, ?_⟩
        have e1 : ∀ t : Token, movesOf [t] = [] → movesOf (t :: node) = [] := by
          intro t h
          have : movesOf (t :: node) = movesOf [t] ++ movesOf node := by
            show movesOf ([t] ++ node) = _
            unfold movesOf
            rw [List.filterMap_append]
          rw [this, h, ht]; rfl
        rw [e1 _ rfl]
        simpa using hm

theorem startGame_turn {b : GameBuilder} {g : Game} (e : b.start dbg = .ok g) :
    g.turn = b.turn.getD (if b.handicap.getD b.handicapPoints.length ≠ 0 then .white else .black) := by
  rw [start_eq] at e
  obtain ⟨_, _, e⟩ := bind_eq_ok e
  obtain ⟨_, _, e⟩ := bind_eq_ok e
  cases e; rfl

/-- The player to move at the start of a record: what `PL` says, else White iff there is a handicap. -/
def firstPlayer (root : List Token) : Color :=
  (players root).getLast?.getD (if (handicaps root).getLast?.getD 0 ≠ 0 then .white else .black)

/-- **C30**, for records in which every node after the root has at most one move, as its first property, and the players
alternate beginning with the one to move: the import gives exactly the game described, or the same panic. -/
theorem C30_from_sgf_partial {root : List Token} {rest : List (List Token)} (hr : ∀ t ∈ root, t.Valid)
    (hv : ∀ x ∈ rest.flatMap movesOf, x.2.Valid) (hfirst : ∀ node ∈ rest, movesOf node.tail = [])
    (halt : Alternate (firstPlayer root) ((rest.flatMap movesOf).map Prod.fst)) :
    fromNodes dbg (root :: rest) = described dbg root rest := by
  obtain ⟨ms, e, hm⟩ := nodeMoves_eq (dbg := dbg) rest hfirst hv
  unfold fromNodes described
  dsimp only
  rw [C30_root_partial hr, ok_bind, List.drop_one, List.tail_cons, e, ok_bind, hm]
  unfold GameBuilder.buildInner
  have e1 : ∀ l, ((rootSays root).setMoves l).start dbg = (rootSays root).start dbg := fun _ => rfl
  rw [e1]
  cases e2 : (rootSays root).start dbg with
  | error _ => rfl
  | ok g =>
    rw [ok_bind, ok_bind]
    have e3 : (rootSays root).moves.foldlM (fun g m => g.play dbg m) g = .ok g := rfl
    rw [e3, ok_bind, playRecord_eq _ _ (by
      rw [startGame_turn e2]
      exact halt)]
    show ((rest.flatMap movesOf).map (fun x => x.2.point)).foldlM (fun g m => g.play dbg m) g = _
    rw [List.foldlM_map]

/-! What the import does with any record. -/

/-- The actions at the head of the nodes. -/
def leading (rest : List (List Token)) : List Action := rest.filterMap (fun node => match node.head? with
  | some (.move _ a) => some a
  | _ => none)

/-- A root token that stops the import: an unknown rule set, another game than Go, a `PL` that is neither `B` nor `W`, and in a
debug build a setup stone with a coordinate 0. -/
def Token.Bad (dbg : Bool) : Token → Prop
  | .add _ x y => dbg = true ∧ (x = 0 ∨ y = 0)
  | .rule r => r = .other
  | .game go => go = false
  | .unknown k v => k = "PL" ∧ v ≠ "B" ∧ v ≠ "W"
  | _ => False

theorem leadingMoves_eq : ∀ (rest : List (List Token)), (∀ a ∈ leading rest, a.Valid) →
    ∃ ms, rest.mapM (nodeMove dbg) = (.ok ms : M _) ∧ ms.filterMap id = (leading rest).map Action.point
  | [], _ => ⟨[], rfl, rfl⟩
  | node :: rest, h => by
    have hsub : ∀ a ∈ leading rest, a ∈ leading (node :: rest) := by
      intro a ha
      unfold leading at ha ⊢
      rw [List.mem_filterMap] at ha ⊢
      obtain ⟨x, hx, hxa⟩ := ha
      exact ⟨x, by simp [hx], hxa⟩
    obtain ⟨ms, e, hm⟩ := leadingMoves_eq rest (fun a ha => h a (hsub a ha))
    rw [List.mapM_cons, e]
    cases node with
    | nil => exact ⟨none :: ms, rfl, hm⟩
    | cons t node =>
      cases t with
      | move c a =>
        have e1 : leading ((.move c a :: node) :: rest) = a :: leading rest := rfl
        unfold nodeMove
        dsimp only
        rw [toMove_ok (h a (by rw [e1]; simp)), e1]
        exact ⟨some a.point :: ms, rfl, by simpa using hm⟩
      | _ => exact ⟨none :: ms, rfl, hm⟩

theorem rootToken_total (b : GameBuilder) (t : Token) : (∃ b', rootToken dbg b t = .ok b') ∨ rootToken dbg b t = panic := by
  have hsub : ∀ x, (∃ y, subU8 dbg x 1 = .ok y) ∨ subU8 dbg x 1 = panic := by
    intro x
    unfold subU8
    split
    · exact Or.inl ⟨_, rfl⟩
    · cases dbg
      · exact Or.inl ⟨_, rfl⟩
      · exact Or.inr rfl
  cases t with
  | add c x y =>
    unfold rootToken
    dsimp only
    rcases hsub y with ⟨r, e⟩ | e
    · rw [e, ok_bind]
      rcases hsub x with ⟨c, e⟩ | e
      · rw [e]; exact Or.inl ⟨_, rfl⟩
      · rw [e]; exact Or.inr rfl
    · rw [e]; exact Or.inr rfl
  | rule r => cases r with
    | other => exact Or.inr rfl
    | _ => exact Or.inl ⟨_, rfl⟩
  | game go => cases go
               · exact Or.inr rfl
               · exact Or.inl ⟨_, rfl⟩
  | _ => exact Or.inl ⟨_, rfl⟩

theorem plToken_total (b : GameBuilder) (t : Token) : (∃ b', plToken b t = .ok b') ∨ plToken b t = panic := by
  cases t with
  | unknown k v =>
    unfold plToken
    dsimp only
    split
    · split
      · exact Or.inl ⟨_, rfl⟩
      · split
        · exact Or.inl ⟨_, rfl⟩
        · exact Or.inr rfl
    · exact Or.inl ⟨_, rfl⟩
  | _ => exact Or.inl ⟨_, rfl⟩

theorem foldlM_total {α β} {f : β → α → M β} (h : ∀ b a, (∃ b', f b a = .ok b') ∨ f b a = panic) : ∀ (l : List α) (b : β),
    (∃ b', l.foldlM f b = .ok b') ∨ l.foldlM f b = panic
  | [], b => Or.inl ⟨b, rfl⟩
  | a :: l, b => by
    rw [List.foldlM_cons]
    rcases h b a with ⟨b', e⟩ | e
    · rw [e, ok_bind]; exact foldlM_total h l b'
    · rw [e]; exact Or.inr rfl

theorem foldlM_panic {α β} {f : β → α → M β} (h : ∀ b a, (∃ b', f b a = .ok b') ∨ f b a = panic) {x : α}
    (hx : ∀ b, f b x = panic) : ∀ (l : List α) (b : β), x ∈ l → l.foldlM f b = panic
  | [], _, hl => by cases hl
  | a :: l, b, hl => by
    rw [List.foldlM_cons]
    rcases h b a with ⟨b', e⟩ | e
    · rcases List.mem_cons.1 hl with rfl | hl
      · rw [hx] at e; cases e
      · rw [e, ok_bind]; exact foldlM_panic h hx l b' hl
    · rw [e]; rfl

theorem rootNode_bad {root : List Token} {t : Token} (ht : t ∈ root) (hb : t.Bad dbg) (b : GameBuilder) :
    rootNode dbg b root = panic := by
  have hstep : ∀ (b : GameBuilder) (t : Token), (∃ b', (do let b ← rootToken dbg b t; root.foldlM plToken b : M GameBuilder) = .ok b') ∨
      (do let b ← rootToken dbg b t; root.foldlM plToken b : M GameBuilder) = panic := by
    intro b t
    rcases rootToken_total (dbg := dbg) b t with ⟨b', e⟩ | e
    · rw [e, ok_bind]; exact foldlM_total plToken_total root b'
    · rw [e]; exact Or.inr rfl
  unfold rootNode
  refine foldlM_panic hstep (x := t) ?_ root b ht
  intro b
  cases t with
  | add c x y =>
    obtain ⟨hd, hxy⟩ := hb
    subst hd
    have : rootToken true b (.add c x y) = panic := by
      unfold rootToken subU8
      dsimp only
      rcases hxy with rfl | rfl
      · by_cases hy : 1 ≤ y
        · rw [if_pos hy]; rfl
        · rw [if_neg hy]; rfl
      · rfl
    rw [this]; rfl
  | rule r =>
    have hb : r = .other := hb
    subst hb; rfl
  | game go =>
    have hb : go = false := hb
    subst hb; rfl
  | unknown k v =>
    obtain ⟨rfl, h1, h2⟩ := hb
    rcases rootToken_total (dbg := dbg) b (.unknown "PL" v) with ⟨b', e⟩ | e
    · rw [e, ok_bind]
      refine foldlM_panic plToken_total (x := .unknown "PL" v) ?_ root b' ht
      intro b
      unfold plToken
      dsimp only
      rw [if_pos rfl, if_neg h1, if_neg h2]
    · rw [e]; rfl
  | komi => exact hb.elim
  | size => exact hb.elim
  | result => exact hb.elim
  | handicap => exact hb.elim
  | move => exact hb.elim
  | other => exact hb.elim

/-- **C30**, what the import does with any record. A root node with a bad token makes it panic, whatever follows. If the root and
the leading actions are valid, the result is the game the root describes, on which the actions at the head of the later nodes
have been played in order: the players they are recorded for, all moves that are not at the head of their node and all setup in
later nodes have no effect. A record without nodes gives a new 19 × 19 game. -/
theorem C30_exact :
    (∀ root rest, (∃ t ∈ root, t.Bad dbg) → fromNodes dbg (root :: rest) = panic) ∧
    (∀ root rest, (∀ t ∈ root, t.Valid) → (∀ a ∈ leading rest, a.Valid) → fromNodes dbg (root :: rest) = do
      let g ← (rootSays root).buildInner dbg
      (leading rest).foldlM (fun g a => g.play dbg a.point) g) ∧
    fromNodes dbg [] = Game.new .nineteen CHINESE := by
  refine ⟨?_, ?_, rfl⟩
  · rintro root rest ⟨t, ht, hb⟩
    unfold fromNodes
    dsimp only
    rw [rootNode_bad ht hb]; rfl
  · intro root rest hr hv
    obtain ⟨ms, e, hm⟩ := leadingMoves_eq (dbg := dbg) rest hv
    unfold fromNodes
    dsimp only
    rw [C30_root_partial hr, ok_bind, List.drop_one, List.tail_cons, e, ok_bind, hm]
    unfold GameBuilder.buildInner
    have e1 : ∀ l, ((rootSays root).setMoves l).start dbg = (rootSays root).start dbg := fun _ => rfl
    rw [e1]
    cases e2 : (rootSays root).start dbg with
    | error _ => rfl
    | ok g =>
      rw [ok_bind, ok_bind]
      have e3 : (rootSays root).moves.foldlM (fun g m => g.play dbg m) g = .ok g := rfl
      rw [e3, ok_bind]
      show ((leading rest).map Action.point).foldlM (fun g m => g.play dbg m) g = _
      rw [List.foldlM_map]

/-- A record with a bad token, one with two leading actions and a lost one. -/
example : (Token.unknown "PL" "Black").Bad false ∧ leading [[.other], [.move .white .pass, .move .black (.move 1 1)],
    [.other, .move .black (.move 2 2)], [.move .white (.move 3 1)]] = [.pass, .move 3 1] := by
  refine ⟨⟨rfl, by decide, by decide⟩, rfl⟩

/-- C30 is false: a record whose first move is White's shows a black stone after the import. -/
theorem C30_false_colour (dbg : Bool) : ∃ g g', fromNodes dbg [[.size 3 3], [.move .white (.move 1 1)]] = .ok g ∧
    described dbg [.size 3 3] [[.move .white (.move 1 1)]] = .ok g' ∧
    g.goban.getColor (0, 0) = .ok (some .black) ∧ g'.goban.getColor (0, 0) = .ok (some .white) := by
  have : okAnd (do
      let g ← fromNodes dbg [[.size 3 3], [.move .white (.move 1 1)]]
      let g' ← described dbg [.size 3 3] [[.move .white (.move 1 1)]]
      .ok (g, g')) (fun r => decide (r.1.goban.getColor (0, 0) = .ok (some .black) ∧
        r.2.goban.getColor (0, 0) = .ok (some .white))) = true := by cases dbg <;> decide +kernel
  obtain ⟨r, e, hr⟩ := okAnd_iff.1 this
  obtain ⟨g, e1, e⟩ := bind_eq_ok e
  obtain ⟨g', e2, e⟩ := bind_eq_ok e
  cases e
  simp only [decide_eq_true_eq] at hr
  exact ⟨g, g', e1, e2, hr⟩

/-- C30 is false: a move that is not the first property of its node (a comment or a clock comes before it) is lost. -/
theorem C30_false_order (dbg : Bool) : ∃ g g', fromNodes dbg [[.size 3 3], [.other, .move .black (.move 1 1)]] = .ok g ∧
    described dbg [.size 3 3] [[.other, .move .black (.move 1 1)]] = .ok g' ∧
    g.goban.getColor (0, 0) = .ok none ∧ g'.goban.getColor (0, 0) = .ok (some .black) := by
  have : okAnd (do
      let g ← fromNodes dbg [[.size 3 3], [.other, .move .black (.move 1 1)]]
      let g' ← described dbg [.size 3 3] [[.other, .move .black (.move 1 1)]]
      .ok (g, g')) (fun r => decide (r.1.goban.getColor (0, 0) = .ok none ∧
        r.2.goban.getColor (0, 0) = .ok (some .black))) = true := by cases dbg <;> decide +kernel
  obtain ⟨r, e, hr⟩ := okAnd_iff.1 this
  obtain ⟨g, e1, e⟩ := bind_eq_ok e
  obtain ⟨g', e2, e⟩ := bind_eq_ok e
  cases e
  simp only [decide_eq_true_eq] at hr
  exact ⟨g, g', e1, e2, hr⟩

theorem C30_false : ¬ C30Full := by
  intro h
  obtain ⟨g, g', e1, e2, h1, h2⟩ := C30_false_colour true
  have := h true [.size 3 3] [[.move .white (.move 1 1)]] (by simp [Token.Valid])
    (by intro x hx; rw [show [[Token.move .white (.move 1 1)]].flatMap movesOf = [(.white, .move 1 1)] from rfl] at hx
        rw [List.mem_singleton] at hx; subst hx; exact ⟨by decide, by decide⟩)
  rw [e1, e2] at this
  cases this
  rw [h1] at h2
  cases h2

/-- Non-vacuity of C30: setup, repeated komi, `PL`, a comment node, a pass and moves, by the recorded players. -/
example : okAnd (fromNodes true [[.game true, .size 5 5, .komi (.fin 1), .add .black 1 1, .unknown "PL" "W", .rule .japanese,
      .komi (.fin (13 / 2))], [.move .white (.move 2 1)], [.other], [.move .black .pass, .other], [.move .white (.move 1 2)]])
    (fun g => g.goban.numberOfStones == (0, 2) && g.prisoners == (0, 1) && g.rule.komi == .fin (13 / 2) && g.turn == .black &&
      g.goban.getColor (1, 0) == .ok (some .white)) = true ∧
    firstPlayer [.unknown "PL" "W"] = .white := by
  constructor <;> decide +kernel

end Sgf
end Model
