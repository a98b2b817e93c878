import Verif.Model.Whole
import Verif.Props.AnyLife
import Verif.Props.Words
import Verif.Props.Single
import Verif.Props.Sizes
/-!
# C109: the game in machine words is the game of the model
-/

namespace Model
open Spec (NoDead)

variable {dbg : Bool} {s : Size} {b w : Nat} {look : Lookup} {g : MGame}

/-! ## What the words stand for -/

/-- The rule that the words stand for. -/
def MRule.stands (r : MRule) : Rule :=
  { komi := r.komi.value, flagIllegal := .ofBits r.flagIllegal, flagScore := .ofBits r.flagScore }

/-- The result that the words stand for. -/
def MEndGame.stands : MEndGame → EndGame
  | .winnerByScore c x => .winnerByScore c x.value
  | .winnerByResign c => .winnerByResign c
  | .winnerByTime c => .winnerByTime c
  | .winnerByForfeit c => .winnerByForfeit c
  | .draw => .draw

/-- The game that the words stand for. -/
def MGame.stands (g : MGame) : Game :=
  { goban := g.goban, passes := g.passes.toNat, prisoners := (g.prisoners.1.toNat, g.prisoners.2.toNat),
    outcome := g.outcome.map MEndGame.stands, turn := g.turn, rule := g.rule.stands, handicap := g.handicap.toNat,
    history := g.history, koPoint := g.koPoint }

/-- The call that the words stand for. -/
def MOp.stands : MOp → GOp
  | .try_ m => .try_ m
  | .resume => .resume
  | .setKomi k => .setKomi k.value

/-! ## Parts -/

theorem addW_eq (x y : BitVec 32) : BitVec.toNat <$> addW dbg x y = addU32 dbg x.toNat y.toNat := by
  unfold addW addU32
  have hx := x.isLt
  have hy := y.isLt
  by_cases h : x.toNat + y.toNat < 2 ^ 32
  · have : x.uaddOverflow y = false := by simp [BitVec.uaddOverflow]; omega
    rw [this, Bool.and_false, if_neg (by decide), if_pos h]
    show Except.ok (x + y).toNat = _
    rw [BitVec.toNat_add, Nat.mod_eq_of_lt h]
  · have : x.uaddOverflow y = true := by simp [BitVec.uaddOverflow]; omega
    rw [this, Bool.and_true, if_neg h]
    cases dbg with
    | true => rfl
    | false =>
      show Except.ok (x + y).toNat = _
      rw [BitVec.toNat_add]; rfl

theorem addW_ok {x y : BitVec 32} (h : x.toNat + y.toNat < 2 ^ 32) : addW dbg x y = .ok (x + y) ∧ (x + y).toNat = x.toNat + y.toNat := by
  have : x.uaddOverflow y = false := by simp [BitVec.uaddOverflow]; omega
  unfold addW
  rw [this, Bool.and_false, BitVec.toNat_add, Nat.mod_eq_of_lt h]
  exact ⟨rfl, rfl⟩

theorem helperCheckEye_board {g h : Game} (e : g.goban = h.goban) (p : Coord) (c : Color) :
    g.helperCheckEye dbg p c = h.helperCheckEye dbg p c := by
  unfold Game.helperCheckEye
  have : g.eyeStep c = h.eyeStep c := by
    funext a p
    unfold Game.eyeStep
    rw [e]
  rw [this]

theorem eyeCorners_board {g h : Game} (e : g.goban = h.goban) (c : Color) : ∀ l, g.eyeCorners dbg c l = h.eyeCorners dbg c l
  | [] => rfl
  | p :: l => by
    unfold Game.eyeCorners
    rw [e, helperCheckEye_board e, eyeCorners_board e c l]

theorem checkEye_board {g h : Game} (e : g.goban = h.goban) (s : Stone) : g.checkEye dbg s = h.checkEye dbg s := by
  unfold Game.checkEye
  rw [e, helperCheckEye_board e]
  simp only [eyeCorners_board e]

theorem AnyGame.beq {g : Game} (h : AnyGame dbg s b w g) : ∀ x ∈ g.history, ∃ r, x.beq g.goban = .ok r := by
  by_cases hz : s.1 = 0 ∨ s.2 = 0
  · rw [(h.zero hz).2.1]; intro x hx; cases hx
  · obtain ⟨h1, _⟩ := h.wgame (by omega) (by omega)
    intro x hx
    exact (h1.hist x hx).1.beq h1.weak (h1.hist x hx).2.symm

theorem AnyGame.beq_after {g : Game} (h : AnyGame dbg s b w g) {p : Coord} (hp : g.goban.getColor p = .ok none) {bd : Goban}
    (e : g.playForVerification dbg p = .ok bd) : ∀ x ∈ g.history, ∃ r, x.beq bd = .ok r := by
  by_cases hz : s.1 = 0 ∨ s.2 = 0
  · rw [(h.zero hz).2.1]; intro x hx; cases hx
  · obtain ⟨h1, _⟩ := h.wgame (by omega) (by omega)
    intro x hx
    obtain ⟨hc, hb⟩ := h1.weak.rep.empty_of hp
    unfold Game.playForVerification at e
    obtain ⟨f, ef, e⟩ := bind_eq_ok e
    obtain ⟨m, em, e⟩ := bind_eq_ok e
    cases e
    have hm := captured_weak (pushed_weak h1.weak hc hb ef) hc hb em
    exact (h1.hist x hx).1.beq hm.weak (hm.size.trans (h1.hist x hx).2.symm)

theorem MGame.playForVerification_eq (h : AnyGame dbg s b w g.stands) (p : Coord) :
    g.playForVerification dbg p = g.stands.playForVerification dbg p := by
  rw [← Game.playForVerification32_eq h.rep.1.fits16]
  unfold MGame.playForVerification Game.playForVerification32
  rw [(C95_contains g.rule.flagIllegal).1.2.2.1]
  rfl

theorem MGame.checkSuperKo_eq (hl : look.Complete) (h : AnyGame dbg s b w g.stands) {st : Stone}
    (hp : g.goban.getColor st.coord = .ok none) : g.checkSuperKo dbg look st = g.stands.checkSuperKo dbg st := by
  unfold MGame.checkSuperKo Game.checkSuperKo
  rw [Game.willCaptureCap_eq, Game.checkKoCap_eq, MGame.playForVerification_eq h]
  refine ite_congr rfl (fun _ => rfl) (fun _ => ?_)
  refine bind_same rfl (fun x _ => ite_congr rfl (fun _ => rfl) (fun _ => ?_))
  refine bind_same rfl (fun bd e => bind_same rfl (fun y _ => ite_congr rfl (fun _ => rfl) (fun _ => ?_)))
  exact historyContainsH_eq hl (h.beq_after hp e)

/-! ## C109 -/

/-- **C109**, `check_point_by`. -/
theorem C109_check_point (hl : look.Complete) (h : AnyGame dbg s b w g.stands) (p : Coord) (r : FlagUInt) :
    g.checkPointBy dbg look p r = g.stands.checkPointBy dbg p (.ofBits r) := by
  obtain ⟨h1, h2, h3, h4⟩ := (C95_contains r).1
  unfold MGame.checkPointBy Game.checkPointBy
  rw [h1, h2, h3, h4]
  refine bind_same rfl (fun o e => ?_)
  cases o with
  | some c => rfl
  | none =>
    rw [Game.checkSuicideCap_eq, Game.checkKoCap_eq, Game.checkEyeCap_eq, checkEye_board (g := g.seen) (h := g.stands) rfl,
      MGame.checkSuperKo_eq hl h (st := { coord := p, color := g.turn }) e]
    rfl

/-- **C109**, `legals_by`. -/
theorem C109_legals (hl : look.Complete) (h : AnyGame dbg s b w g.stands) (r : FlagUInt) :
    g.legalsBy dbg look r = g.stands.legalsBy dbg (.ofBits r) := by
  unfold MGame.legalsBy Game.legalsBy Game.pseudoLegals
  simp only [C109_check_point hl h]
  rfl

/-- **C109**, `play`, any move. -/
theorem C109_play (hl : look.Complete) (h : AnyGame dbg s b w g.stands) (mv : Move) :
    MGame.stands <$> g.play dbg look mv = g.stands.play dbg mv := by
  cases mv with
  | resign c => rfl
  | pass =>
    unfold MGame.play Game.play
    have hd : decide (g.passes < 2#32) = decide (g.stands.passes < 2) := by
      apply decide_eq_decide.2; rw [BitVec.lt_def]; rfl
    rw [hd]
    by_cases h2 : g.stands.passes < 2
    · have ha : assertM (decide (g.stands.passes < 2)) = .ok () := by unfold assertM; rw [if_pos (by simpa using h2)]
      have h3 : g.passes.toNat + (1#32 : BitVec 32).toNat < 2 ^ 32 := by
        have h2 : g.passes.toNat < 2 := h2
        have : (1#32 : BitVec 32).toNat = 1 := rfl
        omega
      obtain ⟨e1, e2⟩ := addW_ok (dbg := dbg) h3
      rw [ha, ok_bind, ok_bind, e1, ok_bind]
      show Except.ok _ = _
      unfold MGame.stands
      dsimp only
      rw [e2]
      rfl
    · have ha : assertM (decide (g.stands.passes < 2)) = panic := by unfold assertM; rw [if_neg (by simpa using h2)]
      rw [ha]; rfl
  | play x y =>
    have hp := h.prisoners_lt
    have hf := h.rep.1.fits16
    unfold MGame.play Game.play
    dsimp only
    rw [show historyInsertH look g.history g.goban = historyInsert g.stands.history g.stands.goban by
      unfold historyInsertH historyInsert
      rw [historyContainsH_eq (h := g.history) (b := g.goban) hl h.beq]
      rfl]
    simp only [Goban.pushWthFeedbackCap_eq]
    cases eh : historyInsert g.stands.history g.stands.goban with
    | error e => rfl
    | ok l =>
      rw [ok_bind, ok_bind]
      cases ef : g.stands.goban.pushWthFeedback dbg (x, y) g.stands.turn with
      | error e =>
        have ef : g.goban.pushWthFeedback dbg (x, y) g.turn = .error e := ef
        rw [ef]; rfl
      | ok f =>
        have ef' : g.goban.pushWthFeedback dbg (x, y) g.turn = .ok f := ef
        rw [ef', ok_bind, ok_bind]
        unfold MGame.removeCapturedStones Game.removeCapturedStones
        have h16 := Goban.fits16_push hf f ef
        have hd := Goban.feedback_dead_length ef
        dsimp only
        rw [Goban.removeCaptured32_eq h16 hd, (C95_contains g.rule.flagIllegal).1.2.2.1]
        show MGame.stands <$> _ = _
        cases es : f.goban.removeCapturedStonesAux dbg (!(IllegalRules.ofBits g.rule.flagIllegal).suicide) f.dead f.added with
        | error e =>
          have es' : f.goban.removeCapturedStonesAux dbg (!g.stands.rule.flagIllegal.suicide) f.dead f.added = .error e := es
          rw [es']; rfl
        | ok c =>
          have es' : f.goban.removeCapturedStonesAux dbg (!g.stands.rule.flagIllegal.suicide) f.dead f.added = .ok c := es
          rw [es']
          have hc := Game.removeCaptured_size h16 hd es
          have hp : g.prisoners.1.toNat + g.prisoners.2.toNat < 2 ^ 31 := hp
          have t1 : (BitVec.ofNat 32 c.removed.1).toNat = c.removed.1 := by
            rw [BitVec.toNat_ofNat]; exact Nat.mod_eq_of_lt (by omega)
          have t2 : (BitVec.ofNat 32 c.removed.2).toNat = c.removed.2 := by
            rw [BitVec.toNat_ofNat]; exact Nat.mod_eq_of_lt (by omega)
          obtain ⟨a1, a2⟩ := addW_ok (dbg := dbg) (x := g.prisoners.1) (y := .ofNat 32 c.removed.1) (by rw [t1]; omega)
          obtain ⟨b1, b2⟩ := addW_ok (dbg := dbg) (x := g.prisoners.2) (y := .ofNat 32 c.removed.2) (by rw [t2]; omega)
          simp only [ok_bind, a1, b1]
          show Except.ok _ = Except.ok _
          unfold MGame.stands
          dsimp only
          rw [a2, b2, t1, t2]
          rfl

/-- **C109**, `try_play`, any move, whatever its coordinates. -/
theorem C109_try_play (hl : look.Complete) (h : AnyGame dbg s b w g.stands) (mv : Move) :
    (fun r : Option PlayError × MGame => (r.1, r.2.stands)) <$> g.tryPlay dbg look mv = g.stands.tryPlay dbg mv := by
  have hb : (fun r : Option PlayError × MGame => (r.1, r.2.stands)) <$> (do let g' ← g.play dbg look mv; .ok (none, g')) =
      (do let g' ← g.stands.play dbg mv; (.ok (none, g') : M (Option PlayError × Game))) := by
    rw [← C109_play hl h mv]
    cases g.play dbg look mv <;> rfl
  unfold MGame.tryPlay Game.tryPlay
  have hps : g.passes = 2#32 ↔ g.stands.passes = 2 := by
    constructor
    · intro e; show g.passes.toNat = 2; rw [e]; rfl
    · intro e; exact BitVec.eq_of_toNat_eq e
  by_cases hp : g.passes = 2#32
  · rw [if_pos hp, if_pos (hps.1 hp)]; rfl
  · rw [if_neg hp, if_neg (fun e => hp (hps.2 e))]
    cases mv with
    | pass => exact hb
    | resign c => exact hb
    | play x y =>
      dsimp only
      rw [C109_check_point hl h]
      show _ <$> (g.goban.getColor (x, y) >>= _) = (g.goban.getColor (x, y) >>= _)
      cases ec : g.goban.getColor (x, y) with
      | error e => rfl
      | ok o =>
        rw [ok_bind, ok_bind]
        cases o with
        | some c => rfl
        | none =>
          rw [if_neg (by simp), if_neg (by simp)]
          show _ <$> (g.stands.checkPointBy dbg (x, y) (IllegalRules.ofBits g.rule.flagIllegal) >>= _) =
            (g.stands.checkPointBy dbg (x, y) (IllegalRules.ofBits g.rule.flagIllegal) >>= _)
          cases g.stands.checkPointBy dbg (x, y) (IllegalRules.ofBits g.rule.flagIllegal) with
          | error e => rfl
          | ok r =>
            cases r with
            | some e => rfl
            | none => exact hb

/-- **C109**, whole sessions: any size, any coordinates, both builds. -/
theorem C109_run (hl : look.Complete) : ∀ (cs : List MOp) {b w : Nat} {g : MGame}, AnyGame dbg s b w g.stands →
    (fun r : List (Option PlayError) × MGame => (r.1, r.2.stands)) <$> g.run dbg look cs = g.stands.run dbg (cs.map MOp.stands)
  | [], _, _, _, _ => rfl
  | c :: cs, b, w, g, h => by
    have hc : (fun r : Option PlayError × MGame => (r.1, r.2.stands)) <$> g.call dbg look c = g.stands.call dbg c.stands := by
      cases c with
      | try_ mv => exact C109_try_play hl h mv
      | resume => rfl
      | setKomi k => rfl
    rw [List.map_cons]
    unfold MGame.run Game.run
    rw [← hc]
    cases e : g.call dbg look c with
    | error x => rfl
    | ok r =>
      have h' : ∃ b' w', AnyGame dbg s b' w' r.2.stands := by
        rw [e] at hc
        cases c with
        | try_ mv => exact h.tryPlay_any (e := r.1) hc.symm
        | resume => cases e; exact ⟨_, _, .resume h⟩
        | setKomi k => cases e; exact ⟨_, _, .setKomi h⟩
      obtain ⟨b', w', h'⟩ := h'
      have ih := C109_run hl cs h'
      show (fun r : List (Option PlayError) × MGame => (r.1, r.2.stands)) <$>
          (do let rs ← r.2.run dbg look cs; (.ok (r.1 :: rs.1, rs.2) : M _)) =
        (do let rs ← r.2.stands.run dbg (cs.map MOp.stands); .ok (r.1 :: rs.1, rs.2))
      rw [← ih]
      cases r.2.run dbg look cs <;> rfl

/-- **C109**, `Game::new`. -/
theorem C109_new (size : GobanSizes) (r : MRule) : MGame.stands <$> MGame.new size r = Game.new size r.stands := by
  unfold MGame.new Game.new
  cases Goban.new size.toSize <;> rfl

/-- **C109**, `put_handicap` with fewer than 2^32 points. -/
theorem C109_put_handicap {ps : List Coord} (hp : ps.length < 2 ^ 32) :
    MGame.stands <$> g.putHandicap dbg ps = g.stands.putHandicap dbg ps := by
  unfold MGame.putHandicap Game.putHandicap Goban.pushMany Goban.push
  simp only [Goban.pushWthFeedbackCap_eq]
  show MGame.stands <$> (_ >>= _) = ((ps.foldlM _ g.goban) >>= _)
  cases ps.foldlM (fun (b : Goban) p => do
    debugAssert dbg (decide (p.1 < b.size.1))
    debugAssert dbg (decide (p.2 < b.size.2))
    let f ← b.pushWthFeedback dbg p .black
    (.ok f.goban : M Goban)) g.goban with
  | error e => rfl
  | ok b =>
    show Except.ok _ = Except.ok _
    unfold MGame.stands
    dsimp only
    rw [BitVec.toNat_ofNat, Nat.mod_eq_of_lt hp]

theorem AnyGame.numberOfStones32 {g : Game} (h : AnyGame dbg s b w g) : g.goban.numberOfStones32 dbg = .ok g.goban.numberOfStones := by
  have h1 := h.rep.1.numberOfStones
  have h2 : ∀ c, cnt g.goban.col c 361 ≤ 361 := fun c => by
    rw [← count_cells]
    refine Nat.le_trans List.count_le_length ?_
    simp
  unfold Goban.numberOfStones at h1 ⊢
  refine stoneCount32 _ _ ?_ ?_
  · rw [h1]; have := h2 .black; dsimp only; omega
  · rw [h1]; have := h2 .white; dsimp only; omega

/-- **C109**, `calculate_score_by`. -/
theorem C109_score {nan : Word32 → Word32 → Word32} (hn : ∀ x y, (nan x y).isNaN = true) (ord : List Point → List Point)
    (h : AnyGame dbg s b w g.stands) (r : FlagUInt) :
    (fun x : Word32 × Word32 => (x.1.value, x.2.value)) <$> g.calculateScoreBy dbg nan ord r =
      g.stands.calculateScoreBy dbg ord (.ofBits r) := by
  rw [← C96_score dbg hn ord g.stands g.rule.komi rfl (.ofBits r)]
  congr 1
  obtain ⟨h1, h2, h3⟩ := (C95_contains r).2
  have hs : g.goban.numberOfStones32 dbg = .ok g.goban.numberOfStones := h.numberOfStones32
  unfold MGame.calculateScoreBy Game.calculateScoreByF
  rw [h1, h2, h3]
  refine bind_same rfl (fun t _ => ?_)
  dsimp only
  rw [hs]
  cases (ScoreRules.ofBits r).stones <;> cases (ScoreRules.ofBits r).prisonners <;> rfl

/-- **C109**, `outcome`. -/
theorem C109_outcome {nan : Word32 → Word32 → Word32} (hn : ∀ x y, (nan x y).isNaN = true) (ord : List Point → List Point)
    (h : AnyGame dbg s b w g.stands) :
    Option.map MEndGame.stands <$> g.getOutcome dbg nan ord = g.stands.getOutcome dbg ord := by
  have ho : g.isOver = g.stands.isOver := by
    unfold MGame.isOver Game.isOver MGame.stands
    dsimp only
    rw [show decide (2#32 ≤ g.passes) = decide (2 ≤ g.passes.toNat) from decide_eq_decide.2 BitVec.le_def]
    cases g.outcome with
    | none => simp
    | some e => simp
  unfold MGame.getOutcome Game.getOutcome Game.calculateScore
  rw [ho]
  split
  · rfl
  · cases hg : g.outcome with
    | some e =>
      have : g.stands.outcome = some e.stands := by show Option.map _ g.outcome = _; rw [hg]; rfl
      rw [this]; rfl
    | none =>
      have : g.stands.outcome = none := by show Option.map _ g.outcome = _; rw [hg]; rfl
      rw [this]
      have hsc := C109_score hn ord h g.rule.flagScore
      rw [if_neg (by decide), if_neg (by decide), show g.stands.rule.flagScore = .ofBits g.rule.flagScore from rfl, ← hsc]
      cases g.calculateScoreBy dbg nan ord g.rule.flagScore with
      | error e => rfl
      | ok x =>
        show Except.ok (some (MEndGame.stands _)) = Except.ok (some (Game.decideByScore (x.1.value, x.2.value)))
        rw [← C96_result hn x]
        unfold Game.decideByScoreF
        congr 2
        split
        · rfl
        · split <;> rfl

/-- **C109**, put together with C107: a game in words on a board where the width divides the height, under a rule that forbids suicide
or does not forbid ko. Up to 65535 calls return, the answers are those of the rules of Go, and the game at the end shows the position,
the player, the passes, the prisoners and the result of the rules of Go. -/
theorem C109_go {h w : Nat} (hh : 1 ≤ h) (hh' : h ≤ 19) (hw : 1 ≤ w) (hw' : w ≤ 19) (hd : w ∣ h) {r : MRule} {g0 : MGame}
    (e0 : MGame.new (.custom h w) r = .ok g0)
    (hr : r.flagIllegal.contains IllegalRules.SUICIDE = true ∨ r.flagIllegal.contains IllegalRules.KO = false) (hl : look.Complete)
    {cs : List MOp} (hcs : ∀ c ∈ cs, c.stands.OnBoard ⟨h, w⟩) (hlen : cs.length < 65536) :
    ∃ es g, g0.run dbg look cs = .ok (es, g) ∧
      es.map toAnswer = (Spec.run ⟨h, w⟩ (IllegalRules.ofBits r.flagIllegal).forbidden (.start (fun _ => none) .black)
        (cs.map (fun c => c.stands.call))).1 ∧
      Looks ⟨h, w⟩ none g.stands (Spec.run ⟨h, w⟩ (IllegalRules.ofBits r.flagIllegal).forbidden (.start (fun _ => none) .black)
        (cs.map (fun c => c.stands.call))).2 := by
  have en : Game.new (.custom h w) r.stands = .ok g0.stands := by rw [← C109_new, e0]; rfl
  rw [(C95_contains r.flagIllegal).1.1, (C95_contains r.flagIllegal).1.2.2.1] at hr
  obtain ⟨es, g1, e, h1, h2⟩ := (C107_sizes (dbg := dbg) hh hh' hw hw' (rule := r.stands) hr).2 hd g0.stands en (cs.map MOp.stands)
    (by intro c hc; obtain ⟨c', hc', rfl⟩ := List.mem_map.1 hc; exact hcs c' hc') (by simpa using hlen)
  have hrun := C109_run (dbg := dbg) hl cs (.new rfl en)
  rw [e] at hrun
  cases e1 : g0.run dbg look cs with
  | error x => rw [e1] at hrun; cases hrun
  | ok x =>
    rw [e1] at hrun
    have hx : (x.1, x.2.stands) = (es, g1) := Except.ok.inj hrun
    cases hx
    rw [List.map_map] at h1 h2
    exact ⟨_, _, rfl, h1, h2⟩

/-- The rules of the crate are the words of the rules of the model. -/
theorem C109_rules : MRule.JAPANESE.stands = JAPANESE ∧ MRule.CHINESE.stands = CHINESE := by decide +kernel

/-! ## A concrete case -/

/-- A game with a capture under the Chinese rule, with a table of eight buckets: it ends by two passes and White has won by 3.5
points, all in words. -/
theorem C109_example (dbg : Bool) : ∃ g0 b w, MGame.new (.custom 2 2) .CHINESE = .ok g0 ∧ AnyGame dbg (2, 2) b w g0.stands ∧
    okAnd (g0.run dbg eightBuckets [.try_ (.play 0 1), .try_ (.play 0 0), .try_ (.play 1 0), .try_ (.play 0 0), .try_ .pass, .try_ .pass])
      (fun r => decide (r.1 = [none, none, none, some .suicide, none, none] ∧ r.2.prisoners = (1#32, 0#32) ∧ r.2.passes = 2#32 ∧
        r.2.getOutcome dbg quietNaN id = .ok (some (.winnerByScore .white 0x40600000)))) = true := by
  obtain ⟨g0, e0, h⟩ : ∃ g0, MGame.new (.custom 2 2) .CHINESE = .ok g0 ∧
    okAnd (g0.run dbg eightBuckets [.try_ (.play 0 1), .try_ (.play 0 0), .try_ (.play 1 0), .try_ (.play 0 0), .try_ .pass, .try_ .pass])
      (fun r => decide (r.1 = [none, none, none, some .suicide, none, none] ∧ r.2.prisoners = (1#32, 0#32) ∧ r.2.passes = 2#32 ∧
        r.2.getOutcome dbg quietNaN id = .ok (some (.winnerByScore .white 0x40600000)))) = true :=
    ⟨_, rfl, by cases dbg <;> decide +kernel⟩
  refine ⟨g0, 0, 0, e0, .new (size := .custom 2 2) (rule := CHINESE) rfl ?_, h⟩
  rw [← C109_rules.2, ← C109_new, e0]
  rfl

end Model
