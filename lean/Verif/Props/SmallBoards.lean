import Verif.Props.Cycle
import Verif.Props.Scoring
/-!
# The smallest boards without super-ko: C72

On boards of width 1, 2 and 3 a short cycle of captures takes the place of the two kos.
-/

namespace Model
open Spec (OnBoard Adj Linked HasLiberty NoDead place SameOn Pos Suicide State Call)

variable {dbg : Bool} {n : Dim} {m : Nat} {g : Game}

theorem moves_outcome : ∀ (ms : List Move) {g k : Game} {es : List (Option PlayError)}, (∀ mv ∈ ms, ∀ c, mv ≠ .resign c) →
    g.run dbg (ms.map GOp.try_) = .ok (es, k) → (∀ e ∈ es, e = none) → k.outcome = g.outcome
  | [], g, k, es, _, e, _ => by cases e; rfl
  | mv :: ms, g, k, es, hr, e, he => by
    obtain ⟨r, es', e1, e2, rfl⟩ := run_cons e
    have h1 : r.1 = none := he _ (by simp)
    have h2 := moves_outcome ms (fun mv h => hr mv (by simp [h])) e2 (fun e h => he e (by simp [h]))
    rw [h2]
    exact tryPlay_outcome (hr mv (by simp)) (show g.tryPlay dbg mv = .ok (none, r.2) by rw [← h1]; exact e1)

theorem steps_of_run {ms : List Move} {k : Game} {es : List (Option PlayError)} (hms : ∀ mv ∈ ms, Move.OnBoard n mv)
    (hr : ∀ mv ∈ ms, ∀ c, mv ≠ .resign c) (e : g.run dbg (ms.map GOp.try_) = .ok (es, k)) (he : ∀ e ∈ es, e = none) : Steps dbg n g k :=
  ⟨ms, es, hms, e, he, moves_outcome ms hr e he⟩

/-- A run that panics makes some of its calls, and the next one panics. -/
theorem run_panic : ∀ (ms : List Move) {g : Game}, g.run dbg (ms.map GOp.try_) = panic →
    ∃ ms1 mv ms2 es k, ms = ms1 ++ mv :: ms2 ∧ g.run dbg (ms1.map GOp.try_) = .ok (es, k) ∧ k.tryPlay dbg mv = panic
  | [], g, e => by cases e
  | mv :: ms, g, e => by
    rw [List.map_cons, run_cons_eq] at e
    cases e1 : g.call dbg (.try_ mv) with
    | error f =>
      rw [e1] at e
      refine ⟨[], mv, ms, [], g, rfl, rfl, e1.trans ?_⟩
      cases e
      rfl
    | ok r =>
      rw [e1, ok_bind] at e
      have e2 : r.2.run dbg (ms.map GOp.try_) = panic := by
        cases e2 : r.2.run dbg (ms.map GOp.try_) with
        | error f => rw [e2] at e; cases e; rfl
        | ok q => rw [e2] at e; cases e
      obtain ⟨ms1, mv', ms2, es, k, h1, h2, h3⟩ := run_panic ms e2
      refine ⟨mv :: ms1, mv', ms2, r.1 :: es, k, by rw [h1]; rfl, ?_, h3⟩
      rw [List.map_cons, run_cons_eq, e1, ok_bind, h2]
      rfl

/-- A cycle of accepted moves with a stone in it leads to a game where an on-board move panics. -/
theorem crash_of_cycle (h : Legal dbg n m g) (hsk : g.rule.flagIllegal.superko = false) {ms : List Move}
    (hms : ∀ mv ∈ ms, Move.OnBoard n mv) (hr : ∀ mv ∈ ms, ∀ c, mv ≠ .resign c) {es : List (Option PlayError)} {g' : Game}
    (e : g.run dbg (ms.map GOp.try_) = .ok (es, g')) (he : ∀ e ∈ es, e = none) (hs : PlaysSame g g')
    (hst : ∃ x y, (GOp.try_ (.play x y), none) ∈ (ms.map GOp.try_).zip es) : Crash dbg n g := by
  have hon : ∀ {l : List Move}, (∀ mv ∈ l, Move.OnBoard n mv) → ∀ c ∈ l.map GOp.try_, c.OnBoard n := by
    intro l hl c hc
    obtain ⟨mv, h1, rfl⟩ := List.mem_map.1 hc
    exact hl mv h1
  obtain ⟨t, _, k, e1, hk, e2⟩ := C130_ends h hsk (hon hms) e hs hst
  have hrep : (List.replicate t (ms.map GOp.try_)).flatten = ((List.replicate t ms).flatten).map GOp.try_ := by
    rw [List.map_flatten, List.map_replicate]
  have hin : ∀ {α} {l : List α} {a : α}, a ∈ (List.replicate t l).flatten → a ∈ l := by
    intro α l a ha
    obtain ⟨l', h1, h2⟩ := List.mem_flatten.1 ha
    rw [(List.mem_replicate.1 h1).2] at h2
    exact h2
  rw [hrep] at e1
  have hsteps : Steps dbg n g k := steps_of_run (fun mv hm => hms mv (hin hm)) (fun mv hm => hr mv (hin hm)) e1 (fun x hx => he x (hin hx))
  obtain ⟨mk, hlk⟩ := Legal.run _ h (hon (fun mv hm => hms mv (hin hm))) e1
  obtain ⟨ms1, mv, ms2, fs, q, rfl, e3, e4⟩ := run_panic ms e2
  have hms1 : ∀ mv ∈ ms1, Move.OnBoard n mv := fun mv hm => hms mv (by simp [hm])
  rw [List.map_append, run_append] at e
  obtain ⟨r, e5, e⟩ := bind_eq_ok e
  obtain ⟨r', e6, e⟩ := bind_eq_ok e
  obtain ⟨h1, _⟩ := C130_same h hlk hsk hk (hon hms1) (es := r.1) (k := r.2) e5 e3
  have hes : es = r.1 ++ r'.1 := (congrArg Prod.fst (Except.ok.inj e)).symm
  refine ⟨q, mv, hsteps.trans (steps_of_run hms1 (fun mv hm => hr mv (by simp [hm])) e3 ?_), hms mv (by simp), e4⟩
  intro x hx
  exact he x (by rw [hes, h1]; simp [hx])

theorem run_length : ∀ (cs : List GOp) {g k : Game} {es : List (Option PlayError)}, g.run dbg cs = .ok (es, k) → es.length = cs.length
  | [], g, k, es, e => by cases e; rfl
  | c :: cs, g, k, es, e => by
    obtain ⟨r, es', e1, e2, rfl⟩ := run_cons e
    simp [run_length cs e2]

/-! ### Evaluated cycles -/

/-- A rule with these forbidden moves. -/
def ruleOf (r : IllegalRules) : Rule := { JAPANESE with flagIllegal := r }

/-- What the evaluation of a cycle has to show; `p` are the moves that lead to the cycle, and the cycle. -/
def cycleRuns (n : Dim) (r : IllegalRules) (p : List Move × List Move) : M Bool := do
  let g0 ← Game.new (.custom n.h n.w) (ruleOf r)
  let a ← g0.run false (p.1.map GOp.try_)
  let b ← a.2.run false (p.2.map GOp.try_)
  let q ← a.2.goban.beq b.2.goban
  .ok (q && a.1.all (· == none) && b.1.all (· == none) && decide (a.2.turn = b.2.turn ∧ a.2.passes = b.2.passes ∧ a.2.koPoint = b.2.koPoint))

def Move.isStone : Move → Bool
  | .play _ _ => true
  | _ => false

def Move.isResign : Move → Bool
  | .resign _ => true
  | _ => false

/-- The moves are on the board, none is a resignation, and the first move of the cycle is a stone. -/
def Proper (n : Dim) (p : List Move × List Move) : Prop :=
  (∀ mv ∈ p.1 ++ p.2, Move.OnBoard n mv) ∧ p.2.head?.any Move.isStone ∧ ∀ mv ∈ p.1 ++ p.2, mv.isResign = false

instance (n : Dim) (p : List Move × List Move) : Decidable (Proper n p) := inferInstanceAs (Decidable (_ ∧ _))

/-- From the new game on this board under this rule, calls of `try_play` that are all accepted lead to a game that is not over and in which
an on-board `try_play` panics. -/
def PanicGame (dbg : Bool) (n : Dim) (rule : Rule) : Prop :=
  ∃ (g0 : Game) (ms : List Move) (es : List (Option PlayError)) (g : Game) (mv : Move),
    Game.new (.custom n.h n.w) rule = .ok g0 ∧ (∀ mv ∈ ms, Move.OnBoard n mv) ∧
    g0.run dbg (ms.map GOp.try_) = .ok (es, g) ∧ (∀ e ∈ es, e = none) ∧
    g.isOver = false ∧ Move.OnBoard n mv ∧ g.tryPlay dbg mv = panic

theorem onBoard_map {l : List Move} (hl : ∀ mv ∈ l, Move.OnBoard n mv) : ∀ c ∈ l.map GOp.try_, c.OnBoard n := by
  intro c hc
  obtain ⟨mv, h1, rfl⟩ := List.mem_map.1 hc
  exact hl mv h1

/-- An evaluated cycle gives a panicking game under every rule that forbids no more, agrees on suicide and does not forbid super-ko. -/
theorem panicGame_of_cycle (dbg : Bool) (hfit : n.Fits) (hh : n.h ≤ 19) (hw : n.w ≤ 19) {rule : Rule} (hsk : rule.flagIllegal.superko = false)
    {r : IllegalRules} (hweak : rule.flagIllegal.Weaker r) (hsu : rule.flagIllegal.suicide = r.suicide) {p : List Move × List Move}
    (hp : Proper n p) (ev : okAnd (cycleRuns n r p) id = true) : PanicGame dbg n rule := by
  have hsz : GobanSizes.toSize (.custom n.h n.w) = n.sz := by
    show (u8 n.h, u8 n.w) = _
    unfold u8 Dim.sz
    rw [Nat.mod_eq_of_lt (by omega), Nat.mod_eq_of_lt (by omega)]
  obtain ⟨_, hx⟩ | ⟨_, g0, e0, hb⟩ := C53_new_partial (.custom n.h n.w) rule (by show n.h < 256; omega) (by show n.w < 256; omega)
  · exact absurd ⟨hh, hw⟩ hx
  have h0 : Fresh dbg n 0 g0 := .new hfit hsz e0
  have hempty : ∀ p, OnBoard n p → g0.goban.view p = none := fun p hp =>
    (getColor_none h0.spec.board.inv.1 hp).1 (hb.empty p hp)
  have hl0 : Legal dbg n 0 g0 := .fresh h0 (fun p hp h => absurd (hempty p hp) h)
  obtain ⟨q, e, hq⟩ := okAnd_iff.1 ev
  cases (show q = true from hq)
  unfold cycleRuns at e
  obtain ⟨s0, es0, e⟩ := bind_eq_ok e
  obtain ⟨⟨as, a⟩, ea, e⟩ := bind_eq_ok e
  obtain ⟨⟨bs, b⟩, eb, e⟩ := bind_eq_ok e
  obtain ⟨q, eq, e⟩ := bind_eq_ok e
  have e := Except.ok.inj e
  simp only [Bool.and_eq_true, List.all_eq_true, beq_iff_eq, decide_eq_true_eq] at e
  obtain ⟨⟨⟨rfl, has⟩, hbs⟩, ht, hps, hko⟩ := e
  have hsame : SameBoard s0 g0 ∧ s0.rule = ruleOf r := by
    unfold Game.new at es0 e0
    obtain ⟨b1, x1, es0⟩ := bind_eq_ok es0
    obtain ⟨b2, x2, e0⟩ := bind_eq_ok e0
    rw [x1] at x2
    cases x2
    cases es0
    cases e0
    exact ⟨⟨rfl, rfl, rfl, rfl, rfl, hsu, rfl, rfl, rfl⟩, rfl⟩
  have hweak : g0.rule.flagIllegal.Weaker (ruleOf r).flagIllegal := by
    rw [hb.rule]
    exact hweak
  have hon1 : ∀ mv ∈ p.1, Move.OnBoard n mv := fun mv h => hp.1 mv (by simp [h])
  have hon2 : ∀ mv ∈ p.2, Move.OnBoard n mv := fun mv h => hp.1 mv (by simp [h])
  have hnr : ∀ mv ∈ p.1 ++ p.2, ∀ c, mv ≠ .resign c := by
    rintro mv h c rfl
    have := hp.2.2 _ h
    cases this
  obtain ⟨a', ea', hsa⟩ := C108_run_weaker hsame.1 (hsame.2 ▸ hweak) ea has
  have hra : a.rule.flagIllegal = (ruleOf r).flagIllegal := by
    have h1 := (Sgf.run_rule ea).1
    rw [← hsame.2, ← h1]
  have hra' : a'.rule.flagIllegal = g0.rule.flagIllegal := by
    have h1 := (Sgf.run_rule ea').1
    rw [← h1]
  obtain ⟨b', eb', hsb⟩ := C108_run_weaker hsa (by rw [hra, hra']; exact hweak) eb hbs
  have hrb' : b'.rule.flagIllegal = a'.rule.flagIllegal := by
    have h1 := (Sgf.run_rule eb').1
    rw [← h1]
  have hall {g k : Game} {m : Nat} {cs : List GOp} {es : List (Option PlayError)} (hl : Legal dbg n m g) (hcs : ∀ c ∈ cs, c.OnBoard n)
      (e : g.run false cs = .ok (es, k)) : g.run dbg cs = .ok (es, k) := by
    obtain ⟨_, _, hr⟩ := hl.reach
    cases dbg
    · exact e
    · rw [C63_all_runs hr hcs]; exact e
  have ea' := hall hl0 (onBoard_map hon1) ea'
  obtain ⟨ma, hla⟩ := Legal.run _ hl0 (onBoard_map hon1) ea'
  have eb' := hall hla (onBoard_map hon2) eb'
  have hc : Crash dbg n g0 := by
    refine (crash_of_cycle hla ?_ hon2 (fun mv h => hnr mv (by simp [h])) eb' hbs ?_ ?_).after
      (steps_of_run hon1 (fun mv h => hnr mv (by simp [h])) ea' has)
    · rw [hra', hb.rule]; exact hsk
    · refine ⟨by rw [hsa.goban, hsb.goban]; exact eq, by rw [hsa.turn, hsb.turn]; exact ht, by rw [hsa.passes, hsb.passes]; exact hps,
        hrb'.symm, by rw [hsa.koPoint, hsb.koPoint]; exact hko⟩
    · have h1 := hp.2.1
      have h2 := run_length _ eb
      revert h1 h2
      cases p.2 with
      | nil => intro h1; cases h1
      | cons mv l =>
        cases mv with
        | play x y =>
          intro _ h2
          cases bs with
          | nil => cases h2
          | cons b bs => exact ⟨x, y, by rw [hbs b (by simp)]; simp⟩
        | pass => intro h1; cases h1
        | resign c => intro h1; cases h1
  obtain ⟨g', mv, ⟨ms', es', a1, a2, a3, a4⟩, b1, b2⟩ := hc
  exact ⟨g0, ms', es', g', mv, e0, a1, a2, a3, goes_on hl0 a1 a2 (a4.trans hb.goesOn.2) b2, b1, b2⟩

/-! ### Short cycles on the boards of width 1, 2 and 3 -/

/-- Everything forbidden but super-ko, and suicide if so chosen. -/
def allBut (su : Bool) : IllegalRules := { ko := true, superko := false, suicide := su, fillEye := true }

/-- The moves that lead to the cycle, and the cycle. -/
def shortCycle (n : Dim) : List Move × List Move :=
  if n.w = 1 then
    if n.h = 3 then ([.play 0 0], [.play 2 0, .pass, .play 1 0, .play 0 0])
    else if n.h = 4 then ([.play 0 0], [.play 3 0, .play 1 0, .play 2 0, .play 0 0, .play 1 0, .play 0 0])
    else ([.pass, .play 3 0, .play 2 0], [.play 0 0, .pass, .play 1 0, .play 2 0])
  else if n.w = 2 then
    if n.h = 2 then ([.play 0 0], [.play 0 1, .play 1 0, .play 1 1, .play 0 0, .play 1 0, .play 0 0])
    else ([.pass, .play 2 0, .pass, .play 2 1, .pass, .play 0 0], [.play 0 1, .pass, .play 1 0, .pass, .play 1 1, .play 0 0])
  else
    if n.h = 3 then ([.play 0 0, .play 0 1, .play 1 0, .play 1 1, .play 2 1], [.play 2 0, .play 1 0, .pass, .play 0 0])
    else ([.pass, .play 2 0, .pass, .play 2 1, .pass, .play 2 2, .play 0 0, .play 1 0, .play 0 1, .play 1 1, .play 1 2],
      [.play 0 2, .play 0 1, .pass, .play 1 2, .pass, .play 0 0])

/-- The boards of width 1, 2 and 3 with at least 3 points and sides at most 19 whose width divides their height. -/
def narrow : List Dim :=
  (List.range 17).map (fun i => ⟨i + 3, 1⟩) ++ (List.range 9).map (fun i => ⟨2 * i + 2, 2⟩) ++ (List.range 6).map (fun i => ⟨3 * i + 3, 3⟩)

theorem mem_narrow (hfit : n.Fits) (hh : n.h ≤ 19) (hw : n.w < 4) (hp : 3 ≤ n.area) : n ∈ narrow := by
  obtain ⟨h, w⟩ := n
  obtain ⟨k, hk⟩ := hfit
  dsimp only at hk hh hw
  have hp : 3 ≤ h * w := hp
  unfold narrow
  simp only [List.mem_append, List.mem_map, List.mem_range]
  have hcase : w = 0 ∨ w = 1 ∨ w = 2 ∨ w = 3 := by omega
  rcases hcase with rfl | rfl | rfl | rfl
  · omega
  · exact Or.inl (Or.inl ⟨h - 3, by omega, by congr 1; omega⟩)
  · exact Or.inl (Or.inr ⟨k - 1, by omega, by congr 1; omega⟩)
  · exact Or.inr ⟨k - 1, by omega, by congr 1; omega⟩

theorem shortCycle_runs : ∀ n ∈ narrow, Proper n (shortCycle n) ∧ ∀ su, okAnd (cycleRuns n (allBut su) (shortCycle n)) id = true := by
  decide +kernel

/-- **C72**, rules without super-ko, every board with room for a capture that can come again. On every supported board with at least 3 points
(sides at most 19, the width dividing the height) and under every rule that does not forbid super-ko, whatever it says of ko, suicide and eyes,
there is a game of `try_play` calls from the new game, all accepted, after which the game is not over and an on-board `try_play` panics. -/
theorem C72_small (dbg : Bool) (hfit : n.Fits) (hh : n.h ≤ 19) (hw : n.w ≤ 19) (hp : 3 ≤ n.area)
    (rule : Rule) (hsk : rule.flagIllegal.superko = false) :
    ∃ (g0 : Game) (ms : List Move) (es : List (Option PlayError)) (g : Game) (mv : Move),
      Game.new (.custom n.h n.w) rule = .ok g0 ∧ (∀ mv ∈ ms, Move.OnBoard n mv) ∧
      g0.run dbg (ms.map GOp.try_) = .ok (es, g) ∧ (∀ e ∈ es, e = none) ∧
      g.isOver = false ∧ Move.OnBoard n mv ∧ g.tryPlay dbg mv = panic := by
  by_cases hw4 : 4 ≤ n.w
  · refine C72_two_kos dbg hfit hh hw hw4 ?_ rule hsk
    rcases Nat.eq_zero_or_pos n.h with h0 | h0
    · have : n.h * n.w = 0 := by rw [h0, Nat.zero_mul]
      have hp : 3 ≤ n.h * n.w := hp
      omega
    · exact h0
  · obtain ⟨h1, h2⟩ := shortCycle_runs n (mem_narrow hfit hh (by omega) hp)
    exact panicGame_of_cycle dbg hfit hh hw hsk (r := allBut rule.flagIllegal.suicide)
      ⟨fun _ => rfl, fun h => (by rw [hsk] at h; cases h), fun h => h, fun _ => rfl⟩ rfl h1 (h2 _)

/-- For example on the 3 × 1 board under the Japanese rule. -/
example : PanicGame true ⟨3, 1⟩ JAPANESE := C72_small true (by decide) (by decide) (by decide) (by decide) JAPANESE rfl

/-! ### One and two points -/

/-- Every accepted move but resignations, up to `d` of them in a row, and then none; nothing panics. -/
def exhausted (dbg : Bool) (ms : List Move) : Nat → Game → Bool
  | 0, _ => false
  | d + 1, g => ms.all fun mv => match g.tryPlay dbg mv with
    | .ok (none, g') => exhausted dbg ms d g'
    | .ok (some _, _) => true
    | .error _ => false

theorem exhausted_run {ms : List Move} : ∀ (l : List Move) {d : Nat} {g : Game} {P : Nat × Nat} {O : Option EndGame},
    exhausted dbg ms d g = true → (∀ mv ∈ l, mv ∈ ms ∨ mv.isResign = true) → ∃ r, (g.forget P O).run dbg (l.map GOp.try_) = .ok r
  | [], d, g, P, O, _, _ => ⟨_, rfl⟩
  | mv :: l, d, g, P, O, h, hl => by
    have hl' : ∀ mv ∈ l, mv ∈ ms ∨ mv.isResign = true := fun mv hm => hl mv (by simp [hm])
    have go : ∃ d' k P' O' a, exhausted dbg ms d' k = true ∧ (g.forget P O).tryPlay dbg mv = .ok (a, k.forget P' O') := by
      by_cases hr : mv.isResign = true
      · cases mv with
        | resign c =>
          by_cases hp : g.passes = 2
          · exact ⟨d, g, P, O, _, h, C13_paused (g := g.forget P O) hp _⟩
          · refine ⟨d, g, P, some (.winnerByResign c), none, h, ?_⟩
            unfold Game.tryPlay
            rw [if_neg (show ¬ (g.forget P O).passes = 2 from hp)]
            rfl
        | pass => cases hr
        | play x y => cases hr
      · have hm := (hl mv (by simp)).resolve_right hr
        cases d with
        | zero => cases h
        | succ d =>
          have h1 := List.all_eq_true.1 h mv hm
          cases e : g.tryPlay dbg mv with
          | error f => rw [e] at h1; cases h1
          | ok r =>
            obtain ⟨a, k⟩ := r
            rw [e] at h1
            obtain ⟨P', O', e'⟩ := tryPlay_forget (P := P) (O := O) e
            cases a with
            | none => exact ⟨d, k, P', O', _, h1, e'⟩
            | some a =>
              rw [C13_refused_unchanged e] at e'
              exact ⟨d + 1, g, P', O', _, h, e'⟩
    obtain ⟨d', k, P', O', a, h1, e1⟩ := go
    obtain ⟨r, e2⟩ := exhausted_run l (P := P') (O := O') h1 hl'
    refine ⟨(a :: r.1, r.2), ?_⟩
    rw [List.map_cons, run_cons_eq, show (g.forget P O).call dbg (.try_ mv) = .ok (a, k.forget P' O') from e1, ok_bind]
    dsimp only
    rw [e2, ok_bind]

end Model
