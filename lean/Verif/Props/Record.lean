import Verif.Props.Exact
/-!
# Importing the record of a game gives the game back: C93
-/

namespace Model
open Spec (OnBoard Adj Linked HasLiberty NoDead place SameOn Pos)

variable {dbg : Bool} {n : Dim} {m : Nat} {g : Game}

namespace Sgf

/-! ### Writing a record -/

/-- A move as a record writes it: column first, both counted from 1. -/
def written : Move → Action
  | .play x y => .move (y + 1) (x + 1)
  | _ => .pass

/-- One node for every move, the players alternating from `c` on. -/
def mainLine : Color → List Move → List (List Token)
  | _, [] => []
  | c, mv :: l => [.move c (written mv)] :: mainLine c.opp l

/-- The moves among the calls a run accepted: stones and passes. Resignations are no moves of a record, they are its result. -/
def recorded (cs : List GOp) (es : List (Option PlayError)) : List Move := (accepted cs es).filterMap (fun
  | .try_ (.play x y) => some (.play x y)
  | .try_ .pass => some .pass
  | _ => none)

/-- The result as a record writes it. -/
def resultOf : EndGame → Outcome
  | .winnerByScore c p => .winnerByPoints c p
  | .winnerByResign c => .winnerByResign c
  | .winnerByTime c => .winnerByTime c
  | .winnerByForfeit c => .winnerByForfeit c
  | .draw => .draw

/-- The player to move as a record writes it. -/
def initial : Color → String
  | .black => "B"
  | .white => "W"

/-- The root node of the record of the game `g`, which was played by the rules `r` on a board of `k` columns and `k` rows and
started from `g0` with the stones `ss` set up. -/
def rootOf (k : Nat) (r : RuleSet) (ss : List Stone) (g0 g : Game) : List Token :=
  [.game true, .size k k, .rule r, .komi g.rule.komi, .handicap g.handicap, .unknown "PL" (initial g0.turn)] ++
    ss.map (fun s => .add s.color (s.coord.2 + 1) (s.coord.1 + 1)) ++ (g.outcome.map (fun o => Token.result (resultOf o))).toList

/-- The passes at the end of a list of moves. -/
def lastPasses (l : List Move) : Nat := (l.reverse.takeWhile (fun mv => decide (mv = .pass))).length

/-! ### The import -/

/-- `g` with other passes, komi and outcome. -/
def patch (k : Nat) (km : F32) (o : Option EndGame) (g : Game) : Game :=
  { g with passes := k, rule := { g.rule with komi := km }, outcome := o }

theorem patch_play {k : Nat} {km : F32} {o : Option EndGame} {x y : Nat} {g' : Game} (e : g.play dbg (.play x y) = .ok g') :
    (patch k km o g).play dbg (.play x y) = .ok (patch 0 km o g') := by
  unfold Game.play at e ⊢
  obtain ⟨h, e1, e⟩ := bind_eq_ok e
  obtain ⟨f, e2, e⟩ := bind_eq_ok e
  obtain ⟨g1, e3, e⟩ := bind_eq_ok e
  unfold Game.removeCapturedStones at e3
  obtain ⟨c, e4, e3⟩ := bind_eq_ok e3
  cases e3; cases e
  unfold patch
  dsimp only at e1 e2 e4 ⊢
  rw [e1, ok_bind, e2, ok_bind]
  unfold Game.removeCapturedStones
  dsimp only
  rw [e4]; rfl

theorem patch_pass {k : Nat} {km : F32} {o : Option EndGame} {g' : Game} (e : g.play dbg .pass = .ok g') :
    (patch k km o g).play dbg .pass = if k < 2 then .ok (patch (k + 1) km o g') else panic := by
  unfold Game.play at e ⊢
  obtain ⟨_, _, e⟩ := bind_eq_ok e
  cases e
  unfold patch assertM
  dsimp only
  by_cases hk : k < 2
  · rw [if_pos hk, if_pos (by simpa using hk)]; rfl
  · rw [if_neg hk, if_neg (by simpa using hk)]; rfl

/-- The passes counted by an import: `none` when there are three in a row. -/
def countPasses : Nat → List Move → Option Nat
  | k, [] => some k
  | k, .pass :: l => if k < 2 then countPasses (k + 1) l else none
  | _, _ :: l => countPasses 0 l

theorem replay : ∀ {cs : List GOp} {g g' : Game} {es : List (Option PlayError)} (k : Nat) {km : F32} {o : Option EndGame},
    g.run dbg cs = .ok (es, g') →
    (recorded cs es).foldlM (fun g mv => g.play dbg mv) (patch k km o g) =
      match countPasses k (recorded cs es) with
      | some j => .ok (patch j km o g')
      | none => panic
  | [], g, g', es, k, km, o, e => by cases e; rfl
  | c :: cs, g, g', es, k, km, o, e => by
    unfold Game.run at e
    obtain ⟨⟨r, g1⟩, e1, e⟩ := bind_eq_ok e
    obtain ⟨⟨rs, g2⟩, e2, e⟩ := bind_eq_ok e
    cases e
    dsimp only at e2 ⊢
    have ih := fun k => replay k (km := km) (o := o) e2
    by_cases hr : r = none
    · subst hr
      have hrec : recorded (c :: cs) (none :: rs) = match c with
          | .try_ (.play x y) => .play x y :: recorded cs rs
          | .try_ .pass => .pass :: recorded cs rs
          | _ => recorded cs rs := by
        cases c with
        | try_ mv => cases mv <;> rfl
        | resume => rfl
        | setKomi _ => rfl
      rw [hrec]
      cases c with
      | resume => cases e1; exact ih k
      | setKomi x => cases e1; exact ih k
      | try_ mv =>
        have ep := C13_accepted_is_play e1
        cases mv with
        | resign w =>
          unfold Game.play at ep
          cases ep
          exact ih k
        | play x y =>
          show List.foldlM _ _ (Move.play x y :: _) = match countPasses k (Move.play x y :: _) with | some _ => _ | none => _
          rw [List.foldlM_cons, patch_play ep, ok_bind, ih 0]
          rfl
        | pass =>
          show List.foldlM _ _ (Move.pass :: _) = match countPasses k (Move.pass :: _) with | some _ => _ | none => _
          rw [List.foldlM_cons, patch_pass ep]
          unfold countPasses
          split
          · rw [ok_bind, ih (k + 1)]
          · rfl
    · have hg : g1 = g := by
        cases c with
        | resume => cases e1; exact absurd rfl hr
        | setKomi x => cases e1; exact absurd rfl hr
        | try_ mv =>
          obtain ⟨er, he⟩ : ∃ er, r = some er := Option.ne_none_iff_exists'.1 hr
          subst he
          exact C13_refused_unchanged e1
      subst hg
      have hrec : recorded (c :: cs) (r :: rs) = recorded cs rs := by
        unfold recorded
        rw [accepted, if_neg hr]
      rw [hrec]
      exact ih k

theorem lastPasses_append {A l : List Move} {x : Move} (hx : x ≠ .pass) : lastPasses (A ++ x :: l) = lastPasses l := by
  unfold lastPasses
  rw [List.reverse_append, List.reverse_cons, List.append_assoc, List.takeWhile_append]
  split
  · next h =>
    rw [List.singleton_append, List.takeWhile_cons_of_neg (by simpa using hx), List.append_nil]
    rw [(List.takeWhile_prefix _).eq_of_length h]
  · rfl

theorem infix_append {l : List Move} {x : Move} (hx : x ≠ .pass) {k : Nat} (hk : k ≤ 2) :
    [Move.pass, .pass, .pass] <:+: List.replicate k .pass ++ x :: l ↔ [Move.pass, .pass, .pass] <:+: l := by
  have h : k = 0 ∨ k = 1 ∨ k = 2 := by omega
  have hx' : Move.pass ≠ x := fun h => hx h.symm
  rcases h with rfl | rfl | rfl <;>
    simp [List.replicate_succ, List.infix_cons_iff, List.cons_prefix_cons, hx']

theorem countPasses_spec : ∀ (l : List Move) (k : Nat), k ≤ 2 →
    countPasses k l = if [Move.pass, .pass, .pass] <:+: List.replicate k .pass ++ l then none
      else some (lastPasses (List.replicate k .pass ++ l))
  | [], k, hk => by
    have h : k = 0 ∨ k = 1 ∨ k = 2 := by omega
    rcases h with rfl | rfl | rfl <;> decide
  | mv :: l, k, hk => by
    by_cases hp : mv = .pass
    · subst hp
      have e : List.replicate k Move.pass ++ .pass :: l = List.replicate (k + 1) .pass ++ l := by
        rw [List.replicate_succ', List.append_assoc, List.singleton_append]
      rw [e]
      unfold countPasses
      split
      · next h => exact countPasses_spec l (k + 1) (by omega)
      · next h =>
        obtain rfl : k = 2 := by omega
        rw [if_pos ⟨[], l, rfl⟩]
    · have e : countPasses k (mv :: l) = countPasses 0 l := by
        cases mv with
        | pass => exact absurd rfl hp
        | play _ _ => rfl
        | resign _ => rfl
      rw [e, countPasses_spec l 0 (by omega), lastPasses_append hp]
      simp only [List.replicate_zero, List.nil_append, infix_append hp hk]

theorem run_rule : ∀ {cs : List GOp} {g g' : Game} {es : List (Option PlayError)}, g.run dbg cs = .ok (es, g') →
    { g'.rule with komi := g.rule.komi } = g.rule ∧ g'.handicap = g.handicap
  | [], g, g', es, e => by cases e; exact ⟨rfl, rfl⟩
  | c :: cs, g, g', es, e => by
    unfold Game.run at e
    obtain ⟨⟨r, g1⟩, e1, e⟩ := bind_eq_ok e
    obtain ⟨⟨rs, g2⟩, e2, e⟩ := bind_eq_ok e
    cases e
    obtain ⟨h1, h2⟩ := run_rule e2
    dsimp only at h1 h2 ⊢
    have h : { g1.rule with komi := g.rule.komi } = g.rule ∧ g1.handicap = g.handicap := by
      cases c with
      | resume => cases e1; exact ⟨rfl, rfl⟩
      | setKomi x => cases e1; exact ⟨rfl, rfl⟩
      | try_ mv =>
        cases r with
        | some er => rw [C13_refused_unchanged e1]; exact ⟨rfl, rfl⟩
        | none =>
          have ep := C13_accepted_is_play e1
          cases mv with
          | resign w => cases ep; exact ⟨rfl, rfl⟩
          | pass =>
            unfold Game.play at ep
            obtain ⟨_, _, ep⟩ := bind_eq_ok ep
            cases ep; exact ⟨rfl, rfl⟩
          | play x y =>
            unfold Game.play at ep
            obtain ⟨_, _, ep⟩ := bind_eq_ok ep
            obtain ⟨_, _, ep⟩ := bind_eq_ok ep
            obtain ⟨_, e3, ep⟩ := bind_eq_ok ep
            unfold Game.removeCapturedStones at e3
            obtain ⟨_, _, e3⟩ := bind_eq_ok e3
            cases e3; cases ep; exact ⟨rfl, rfl⟩
    refine ⟨?_, by rw [h2, h.2]⟩
    rw [← h.1, ← h1]

theorem leading_mainLine : ∀ (c : Color) (l : List Move), leading (mainLine c l) = l.map written
  | _, [] => rfl
  | c, mv :: l => by
    show written mv :: leading (mainLine c.opp l) = _
    rw [leading_mainLine]; rfl

theorem written_point {mv : Move} (h : ∀ c, mv ≠ .resign c) : (written mv).point = mv := by
  cases mv with
  | play x y => rfl
  | pass => rfl
  | resign c => exact absurd rfl (h c)

theorem recorded_ne {cs : List GOp} {es : List (Option PlayError)} {mv : Move} (h : mv ∈ recorded cs es) :
    ∀ c, mv ≠ .resign c := by
  intro c hc
  subst hc
  obtain ⟨a, _, e⟩ := List.mem_filterMap.1 h
  revert e
  split <;> intro e <;> cases e

theorem rootSays_rootOf {k : Nat} {r : RuleSet} {ss : List Stone} {g0 g : Game} :
    rootSays (rootOf k r ss g0 g) = { GameBuilder.default with
      size := (k, k), rule := r.named, komi := some g.rule.komi, handicap := some g.handicap, turn := some g0.turn,
      setup := ss, outcome := g.outcome } := by
  have ht : ∀ {β} (f : Token → Option β), (∀ c x y, f (.add c x y) = none) →
      (ss.map (fun s => Token.add s.color (s.coord.2 + 1) (s.coord.1 + 1))).filterMap f = [] := by
    intro β f hf
    rw [List.filterMap_eq_nil_iff]
    intro a ha
    obtain ⟨s, _, rfl⟩ := List.mem_map.1 ha
    exact hf _ _ _
  have ho : ∀ {β} (f : Token → Option β), (∀ o, f (.result o) = none) →
      ((g.outcome.map (fun o => Token.result (resultOf o))).toList).filterMap f = [] := by
    intro β f hf
    cases g.outcome with
    | none => rfl
    | some o => simp [hf]
  have h1 : komis (rootOf k r ss g0 g) = [g.rule.komi] := by
    unfold komis rootOf
    rw [List.filterMap_append, List.filterMap_append, ht _ (by intros; rfl), ho _ (by intros; rfl)]; rfl
  have h2 : sizes (rootOf k r ss g0 g) = [(k, k)] := by
    unfold sizes rootOf
    rw [List.filterMap_append, List.filterMap_append, ht _ (by intros; rfl), ho _ (by intros; rfl)]; rfl
  have h3 : rules (rootOf k r ss g0 g) = [r] := by
    unfold rules rootOf
    rw [List.filterMap_append, List.filterMap_append, ht _ (by intros; rfl), ho _ (by intros; rfl)]; rfl
  have h4 : handicaps (rootOf k r ss g0 g) = [g.handicap] := by
    unfold handicaps rootOf
    rw [List.filterMap_append, List.filterMap_append, ht _ (by intros; rfl), ho _ (by intros; rfl)]; rfl
  have h5 : players (rootOf k r ss g0 g) = [g0.turn] := by
    unfold players rootOf
    rw [List.filterMap_append, List.filterMap_append, ht _ (by intros; rfl), ho _ (by intros; rfl)]
    cases g0.turn <;> rfl
  have h6 : (results (rootOf k r ss g0 g)).getLast?.map Outcome.named = g.outcome := by
    unfold results rootOf
    rw [List.filterMap_append, List.filterMap_append, ht _ (by intros; rfl)]
    cases g.outcome with
    | none => rfl
    | some o => cases o <;> rfl
  have h7 : (adds (rootOf k r ss g0 g)).map (fun a => ({ coord := (a.2.2 - 1, a.2.1 - 1), color := a.1 } : Stone)) = ss := by
    unfold adds rootOf
    rw [List.filterMap_append, List.filterMap_append, ho _ (by intros; rfl), List.filterMap_map]
    have : ∀ l : List Stone, (l.filterMap ((fun | Token.add c x y => some (c, x, y) | _ => none) ∘
        fun s => Token.add s.color (s.coord.2 + 1) (s.coord.1 + 1))).map
        (fun a => ({ coord := (a.2.2 - 1, a.2.1 - 1), color := a.1 } : Stone)) = l := by
      intro l
      induction l with
      | nil => rfl
      | cons s l ih => rw [List.filterMap_cons]; dsimp only [Function.comp_apply]; rw [List.map_cons, ih]; rfl
    rw [List.append_nil]
    exact this ss
  unfold rootSays
  rw [h1, h2, h3, h4, h5, h6, h7]
  rfl

theorem rootOf_valid {k : Nat} (hk : k < 256) {r : RuleSet} (hr : r ≠ .other) {ss : List Stone} {g0 g : Game} :
    ∀ t ∈ rootOf k r ss g0 g, t.Valid := by
  intro t ht
  unfold rootOf at ht
  rcases List.mem_append.1 ht with ht | ht
  · rcases List.mem_append.1 ht with ht | ht
    · simp only [List.mem_cons, List.not_mem_nil, or_false] at ht
      rcases ht with rfl | rfl | rfl | rfl | rfl | rfl
      · rfl
      · exact ⟨hk, hk⟩
      · exact hr
      · trivial
      · trivial
      · intro _; cases g0.turn
        · exact Or.inl rfl
        · exact Or.inr rfl
    · obtain ⟨s, _, rfl⟩ := List.mem_map.1 ht
      exact ⟨by omega, by omega⟩
  · cases ho : g.outcome with
    | none => rw [ho] at ht; cases ht
    | some o =>
      rw [ho] at ht
      obtain rfl : t = _ := by simpa using ht
      trivial

theorem start_of {b : GameBuilder} {k : Nat} {r : RuleSet} {g0 g : Game} (hs : b.size = (k, k)) (hr : b.rule = r.named)
    (hm : b.moves = []) (e0 : b.buildInner dbg = .ok g0) (hh : g.handicap = g0.handicap) :
    (rootSays (rootOf k r (b.handicapPoints.map (fun p => ⟨p, .black⟩) ++ b.setup) g0 g)).buildInner dbg =
      .ok (patch 0 g.rule.komi g.outcome g0) := by
  unfold GameBuilder.buildInner at e0
  obtain ⟨x, e1, e2⟩ := bind_eq_ok e0
  rw [hm] at e2
  cases e2
  unfold GameBuilder.start at e1
  obtain ⟨o1, a1, e1⟩ := bind_eq_ok e1
  dsimp only at e1
  obtain ⟨o2, a2, e1⟩ := bind_eq_ok e1
  obtain ⟨o3, a3, e1⟩ := bind_eq_ok e1
  have hp : (b.handicapPoints.map (fun p => (⟨p, .black⟩ : Stone)) ++ b.setup).foldlM (fun g s => Goban.pushStone dbg g s) o1 =
      .ok o3 := by
    rw [foldlM_append', List.foldlM_map]
    show ((b.handicapPoints.foldlM (fun g p => Goban.push dbg g p .black) o1) >>= _) = _
    rw [a2, ok_bind, a3]
  rw [rootSays_rootOf]
  unfold GameBuilder.buildInner GameBuilder.start
  dsimp only [GameBuilder.default]
  rw [← hs, a1, ok_bind]
  rw [List.foldlM_nil, pure_bind', hp, ok_bind]
  cases e1
  rw [hh, ← hr]
  cases b.komi <;> rfl

theorem import_eq {b : GameBuilder} {k : Nat} {r : RuleSet} {g0 g : Game} {cs : List GOp} {es : List (Option PlayError)}
    (hk : k < 256) (hs : b.size = (k, k)) (hr : r ≠ .other) (hb : b.rule = r.named) (hm : b.moves = [])
    (e0 : b.buildInner dbg = .ok g0) (e : g0.run dbg cs = .ok (es, g)) :
    fromNodes dbg (rootOf k r (b.handicapPoints.map (fun p => ⟨p, .black⟩) ++ b.setup) g0 g ::
      mainLine g0.turn (recorded cs es)) =
      match countPasses 0 (recorded cs es) with
      | some j => .ok { g with passes := j }
      | none => panic := by
  have hv : ∀ a ∈ leading (mainLine g0.turn (recorded cs es)), a.Valid := by
    rw [leading_mainLine]
    intro a ha
    obtain ⟨mv, _, rfl⟩ := List.mem_map.1 ha
    cases mv with
    | play x y => exact ⟨by omega, by omega⟩
    | pass => trivial
    | resign _ => trivial
  obtain ⟨hrule, hh⟩ := run_rule e
  rw [C30_exact.2.1 _ _ (rootOf_valid hk hr) hv, start_of hs hb hm e0 hh, ok_bind, leading_mainLine, List.foldlM_map]
  have hf : (recorded cs es).foldlM (fun g mv => g.play dbg (written mv).point) (patch 0 g.rule.komi g.outcome g0) =
      (recorded cs es).foldlM (fun g mv => g.play dbg mv) (patch 0 g.rule.komi g.outcome g0) := by
    have : ∀ (l : List Move), (∀ mv ∈ l, ∀ c, mv ≠ .resign c) → ∀ x : Game,
        l.foldlM (fun g mv => g.play dbg (written mv).point) x = l.foldlM (fun g mv => g.play dbg mv) x := by
      intro l hl
      induction l with
      | nil => intro x; rfl
      | cons mv l ih =>
        intro x
        rw [List.foldlM_cons, List.foldlM_cons, written_point (hl mv (by simp))]
        congr 1; funext y
        exact ih (fun mv hmv => hl mv (by simp [hmv])) y
    exact this _ (fun mv hmv => recorded_ne hmv) _
  rw [hf, replay 0 e]
  rfl

/-- **C93**. Write the record of a game: a game built with `b` (any setup and handicap) on a square board with Japanese or
Chinese rules, on which any calls `cs` of `try_play`, `resume` and `set_komi` were made; the root node says the board, the
rules, the komi, the handicap, the stones set up, who begins and the result, and there is one node for every stone and pass that
was accepted. If the record does not have three passes in a row, importing it gives exactly this game: the same board, groups,
prisoners, player to move, ko point, history, rule and outcome. Only the passes are counted anew: those at the end of the
record. -/
theorem C93_import {b : GameBuilder} {k : Nat} {r : RuleSet} {g0 g : Game} {cs : List GOp} {es : List (Option PlayError)}
    (hk : k < 256) (hs : b.size = (k, k)) (hr : r ≠ .other) (hb : b.rule = r.named) (hm : b.moves = [])
    (e0 : b.buildInner dbg = .ok g0) (e : g0.run dbg cs = .ok (es, g))
    (h3 : ¬ [Move.pass, .pass, .pass] <:+: recorded cs es) :
    fromNodes dbg (rootOf k r (b.handicapPoints.map (fun p => ⟨p, .black⟩) ++ b.setup) g0 g ::
      mainLine g0.turn (recorded cs es)) = .ok { g with passes := lastPasses (recorded cs es) } := by
  rw [import_eq hk hs hr hb hm e0 e, countPasses_spec _ 0 (by omega), List.replicate_zero, List.nil_append, if_neg h3]

/-- **C93**, the other records: with three passes in a row (which takes a `resume` in between) the import panics. -/
theorem C93_three_passes {b : GameBuilder} {k : Nat} {r : RuleSet} {g0 g : Game} {cs : List GOp} {es : List (Option PlayError)}
    (hk : k < 256) (hs : b.size = (k, k)) (hr : r ≠ .other) (hb : b.rule = r.named) (hm : b.moves = [])
    (e0 : b.buildInner dbg = .ok g0) (e : g0.run dbg cs = .ok (es, g))
    (h3 : [Move.pass, .pass, .pass] <:+: recorded cs es) :
    fromNodes dbg (rootOf k r (b.handicapPoints.map (fun p => ⟨p, .black⟩) ++ b.setup) g0 g ::
      mainLine g0.turn (recorded cs es)) = panic := by
  rw [import_eq hk hs hr hb hm e0 e, countPasses_spec _ 0 (by omega), List.replicate_zero, List.nil_append, if_pos h3]

theorem passes_run : ∀ {cs : List GOp} {g g' : Game} {es : List (Option PlayError)}, GOp.resume ∉ cs →
    g.run dbg cs = .ok (es, g') → countPasses g.passes (recorded cs es) = some g'.passes
  | [], g, g', es, _, e => by cases e; rfl
  | c :: cs, g, g', es, hn, e => by
    unfold Game.run at e
    obtain ⟨⟨r, g1⟩, e1, e⟩ := bind_eq_ok e
    obtain ⟨⟨rs, g2⟩, e2, e⟩ := bind_eq_ok e
    cases e
    dsimp only at e2 ⊢
    have ih := passes_run (fun h => hn (List.mem_cons_of_mem _ h)) e2
    by_cases hr : r = none
    · subst hr
      cases c with
      | resume => exact absurd List.mem_cons_self hn
      | setKomi x => cases e1; exact ih
      | try_ mv =>
        have ep := C13_accepted_is_play e1
        cases mv with
        | resign w => cases ep; exact ih
        | play x y =>
          show countPasses _ (Move.play x y :: recorded cs rs) = _
          unfold Game.play at ep
          obtain ⟨_, _, ep⟩ := bind_eq_ok ep
          obtain ⟨_, _, ep⟩ := bind_eq_ok ep
          obtain ⟨_, e3, ep⟩ := bind_eq_ok ep
          cases ep
          exact ih
        | pass =>
          show countPasses _ (Move.pass :: recorded cs rs) = _
          unfold Game.play at ep
          obtain ⟨_, e3, ep⟩ := bind_eq_ok ep
          cases ep
          have : g.passes < 2 := by simpa using assertM_eq_ok e3
          unfold countPasses
          rw [if_pos this]
          exact ih
    · have hg : g1 = g := by
        cases c with
        | resume => cases e1; exact absurd rfl hr
        | setKomi x => cases e1; exact absurd rfl hr
        | try_ mv =>
          obtain ⟨er, he⟩ : ∃ er, r = some er := Option.ne_none_iff_exists'.1 hr
          subst he
          exact C13_refused_unchanged e1
      subst hg
      have hrec : recorded (c :: cs) (r :: rs) = recorded cs rs := by
        unfold recorded
        rw [accepted, if_neg hr]
      rw [hrec]
      exact ih

/-- **C93** for a game that was never resumed: importing its record gives exactly this game, whatever happened in it. -/
theorem C93_import_unresumed {b : GameBuilder} {k : Nat} {r : RuleSet} {g0 g : Game} {cs : List GOp}
    {es : List (Option PlayError)} (hk : k < 256) (hs : b.size = (k, k)) (hr : r ≠ .other) (hb : b.rule = r.named)
    (hm : b.moves = []) (e0 : b.buildInner dbg = .ok g0) (e : g0.run dbg cs = .ok (es, g)) (hn : GOp.resume ∉ cs) :
    fromNodes dbg (rootOf k r (b.handicapPoints.map (fun p => ⟨p, .black⟩) ++ b.setup) g0 g ::
      mainLine g0.turn (recorded cs es)) = .ok g := by
  have h0 : g0.passes = 0 := by
    unfold GameBuilder.buildInner at e0
    obtain ⟨x, e1, e2⟩ := bind_eq_ok e0
    rw [hm] at e2
    cases e2
    unfold GameBuilder.start at e1
    obtain ⟨o1, a1, e1⟩ := bind_eq_ok e1
    dsimp only at e1
    obtain ⟨o2, a2, e1⟩ := bind_eq_ok e1
    obtain ⟨o3, a3, e1⟩ := bind_eq_ok e1
    cases e1; rfl
  have h := passes_run hn e
  rw [h0] at h
  rw [import_eq hk hs hr hb hm e0 e, h]

/-- The record says `SZ[4:2]`: four columns and two rows. The import makes a board with four rows and two columns: the point of
the first move, in the fourth column of the first row, is not on it, and `get_stones` lists the stone elsewhere. This is why `C93` is about
square boards. -/
theorem C93_false_not_square (dbg : Bool) : ∃ g, fromNodes dbg [[.size 4 2], [.move .black (.move 4 1)]] = .ok g ∧
    g.goban.size = (4, 2) ∧ isCoordValid g.goban.size (0, 3) = false ∧
    g.goban.getStones = .ok [{ coord := (0, 1), color := .black }] := by
  have h : ∀ d, okAnd (fromNodes d [[.size 4 2], [.move .black (.move 4 1)]]) (fun g => g.goban.size == (4, 2) &&
      !isCoordValid g.goban.size (0, 3) && decide (g.goban.getStones = .ok [{ coord := (0, 1), color := .black }])) = true := by
    decide +kernel
  obtain ⟨g, e, hg⟩ := okAnd_iff.1 (h dbg)
  simp only [Bool.and_eq_true, beq_iff_eq, Bool.not_eq_true', decide_eq_true_eq] at hg
  exact ⟨g, e, hg.1.1, hg.1.2, hg.2⟩

/-- Non-vacuity of `C93_import`, `C93_import_unresumed` and `C93_three_passes`: a game with handicap and setup, a capture, a refused move, a
new komi and a resignation; one that is resumed after two passes and goes on; and one in which both players pass again. -/
example : (∀ dbg, okAnd (do
      let b := ((GameBuilder.default.setSize (3, 3)).putHandicap [(0, 0)]).add ⟨(2, 2), .white⟩
      let g0 ← b.buildInner dbg
      let r ← g0.run dbg [.try_ (.play 0 1), .try_ (.play 0 1), .setKomi (.fin 1), .try_ .pass, .try_ (.play 1 0), .try_ (.resign .black)]
      let i ← fromNodes dbg (rootOf 3 .chinese [⟨(0, 0), .black⟩, ⟨(2, 2), .white⟩] g0 r.2 :: mainLine g0.turn
        (recorded [.try_ (.play 0 1), .try_ (.play 0 1), .setKomi (.fin 1), .try_ .pass, .try_ (.play 1 0), .try_ (.resign .black)] r.1))
      .ok (r, i)) (fun x => x.1.1 == [none, some .pointNotEmpty, none, none, none, none] && x.1.2.prisoners == (0, 1) &&
        x.2 == x.1.2) = true) ∧
    (∀ dbg, okAnd (do
      let g0 ← (GameBuilder.default.setSize (3, 3)).buildInner dbg
      let r ← g0.run dbg [.try_ .pass, .try_ .pass, .resume, .try_ (.play 1 1), .try_ .pass]
      .ok r) (fun x => x.1 == [none, none, none, none, none] && x.2.passes == 1) = true) ∧
    ∀ dbg, okAnd (do
      let g0 ← (GameBuilder.default.setSize (3, 3)).buildInner dbg
      let r ← g0.run dbg [.try_ .pass, .try_ .pass, .resume, .try_ .pass]
      .ok (recorded [.try_ .pass, .try_ .pass, .resume, .try_ .pass] r.1)) (fun l => l == [.pass, .pass, .pass]) = true := by
  refine ⟨by decide +kernel, by decide +kernel, by decide +kernel⟩

end Sgf
end Model
