import Verif.Props.Game
/-!
# Ko, super-ko and history: C14, C15, C28, C41, C42
-/

namespace Model
open Spec (OnBoard Adj Linked HasLiberty NoDead place SameOn Pos Suicide State)

variable {dbg : Bool} {n : Dim} {m : Nat} {g : Game}

/-! ## C14 -/

/-- **C14**. After an accepted play from `g0`, at an empty point where a play is not suicide: `check_ko` says true iff playing
there would restore exactly the position `g0` showed. -/
theorem C14_check_ko {g0 : Game} (h : Legal dbg n m g0) {x y : Nat} (hxy : OnBoard n (x, y))
    (e : g0.tryPlay dbg (.play x y) = .ok (none, g)) {p : Coord} (hp : OnBoard n p) (he : g.goban.getColor p = .ok none)
    (hns : ¬ Suicide n g.goban.view p g.turn) :
    ∃ b, g.checkKo dbg { coord := p, color := g.turn } = .ok b ∧
      (b = true ↔ SameOn n (Spec.play n (!g.rule.flagIllegal.suicide) g.goban.view p g.turn) g0.goban.view) := by
  obtain ⟨o, s, m', _, hps, hs⟩ := h.sim
  obtain ⟨_, _, hok⟩ := (hs.tryPlay_any (.play x y) hxy hps).of_ok e
  obtain ⟨_, _, m2, _, hs2⟩ := hok rfl
  have he' := (getColor_none hs2.inv hp).1 he
  obtain ⟨b, e1, hb⟩ := hs2.checkKo hp (by rw [← hs2.pos p hp]; exact he')
  refine ⟨b, e1, ?_⟩
  rw [hb (by rw [← suicide_congr hs2.pos hp, ← hs2.turn]; exact hns) (!g.rule.flagIllegal.suicide)]
  have hcong : SameOn n (Spec.play n (!g.rule.flagIllegal.suicide) g.goban.view p g.turn)
      (Spec.play n (!g.rule.flagIllegal.suicide) (Spec.apply n g0.rule.flagIllegal.forbidden s (.play (x, y))).pos p
        (Spec.apply n g0.rule.flagIllegal.forbidden s (.play (x, y))).turn) := by
    have h1 := play_congr hs2.pos (!g.rule.flagIllegal.suicide) p g.turn
    rw [hs2.turn] at h1 ⊢
    exact h1
  rw [sameOn_congr hcong hs.pos]
  constructor
  · rintro ⟨b0, h1, h2⟩
    cases h1
    exact h2
  · intro h2
    exact ⟨s.pos, rfl, h2⟩

/-- **C14**, complement: after a pass there is no ko. -/
theorem C14_no_ko_after_pass {g0 : Game} (e : g0.tryPlay dbg .pass = .ok (none, g)) (p : Coord) (c : Color) :
    g.checkKo dbg { coord := p, color := c } = .ok false := by
  have e := C13_accepted_is_play e
  unfold Game.play at e
  obtain ⟨_, _, e⟩ := bind_eq_ok e
  cases e
  rfl

/-- Both answers occur after the ko capture at (1,2): retaking at (1,1) is ko, playing (3,0) is not. -/
example : ∃ g, Legal true 4 9 g ∧ (g.checkKo true { coord := (1, 1), color := g.turn } = .ok true ∧
    g.checkKo true { coord := (3, 0), color := g.turn } = .ok false ∧
    g.checkSuicide true { coord := (1, 1), color := g.turn } = .ok false : Bool) = true :=
  mkGame_exists (rule := JAPANESE) (l := exKo) (by decide) (by decide +kernel)

/-! ## C41 -/

/-- **C41**. Under a rule that forbids ko and suicide, two accepted plays in a row never restore the position. -/
theorem C41_no_two_ply_repetition {g0 g1 g2 : Game} (h : Legal dbg n m g0) (hk : g0.rule.flagIllegal.ko = true)
    (hsu : g0.rule.flagIllegal.suicide = true) {x y x' y' : Nat} (h1 : OnBoard n (x, y)) (h2 : OnBoard n (x', y'))
    (e1 : g0.tryPlay dbg (.play x y) = .ok (none, g1)) (e2 : g1.tryPlay dbg (.play x' y') = .ok (none, g2)) :
    ¬ SameOn n g2.goban.view g0.goban.view := by
  obtain ⟨o, s, m', _, hps, hs⟩ := h.sim
  obtain ⟨hr1, _, hok⟩ := (hs.tryPlay_any (.play x y) h1 hps).of_ok e1
  obtain ⟨_, hps1, m1, _, hs1⟩ := hok rfl
  have hr1 : g1.rule = g0.rule := hr1
  have ha := (hs1.tryPlay (.play x' y') h2 hps1 (by rw [hr1]; exact Or.inl hsu)).of_ok e2
  obtain ⟨ha, ⟨m2, _, hs2⟩, _, _⟩ := ha
  rw [hr1] at ha hs2
  have hans : Spec.answer n g0.rule.flagIllegal.forbidden (Spec.apply n g0.rule.flagIllegal.forbidden s (.play (x, y)))
      (.play (x', y')) = .ok := by
    apply Classical.byContradiction
    intro hne
    have := step_refused (n := n) (r := g0.rule.flagIllegal.forbidden)
      (s := Spec.apply n g0.rule.flagIllegal.forbidden s (.play (x, y))) (c := .play (x', y')) rfl hne
    rw [show (Move.play x' y').call = .play (x', y') from rfl,
      show (Move.play x y).call = .play (x, y) from rfl, this] at ha
    exact hne ha.symm
  intro hsame
  have hgo : SameOn n g2.goban.view (Spec.play n (!g0.rule.flagIllegal.suicide)
      (Spec.apply n g0.rule.flagIllegal.forbidden s (.play (x, y))).pos (x', y')
      (Spec.apply n g0.rule.flagIllegal.forbidden s (.play (x, y))).turn) := by
    have := hs2.pos
    rw [show (Move.play x' y').call = .play (x', y') from rfl, show (Move.play x y).call = .play (x, y) from rfl,
      step_ok hans] at this
    exact this
  have hko : Spec.Ko n (!g0.rule.flagIllegal.suicide) (Spec.apply n g0.rule.flagIllegal.forbidden s (.play (x, y))) (x', y') :=
    ⟨s.pos, rfl, (sameOn_congr hgo hs.pos).1 hsame⟩
  rw [answer_play] at hans
  split at hans
  · cases hans
  split at hans
  · cases hans
  rw [toAnswer_ok] at hans
  unfold refusal at hans
  split at hans
  · cases hans
  rw [if_pos ⟨hk, hko⟩] at hans
  cases hans

/-- Non-vacuity of C41: two accepted plays, the first of them a capture. -/
example : ∃ g, Legal true 4 8 g ∧ (g.rule.flagIllegal.ko ∧ g.rule.flagIllegal.suicide ∧ okAnd (do
    let (e1, g1) ← g.tryPlay true (.play 1 2)
    let (e2, g2) ← g1.tryPlay true (.play 3 0)
    .ok (e1, e2, g2)) (fun r => r.1 = none ∧ r.2.1 = none ∧ r.2.2.prisoners = (1, 0)) : Bool) = true :=
  mkGame_exists (rule := JAPANESE) (l := exKo.dropLast) (by decide) (by decide +kernel)

/-! ## C42 -/

/-- What a sequence of calls from a fresh game leads to: the abstract state after the accepted calls. -/
theorem run_sim {g0 : Game} {m0 : Nat} (hf : Fresh dbg n m0 g0) (hd : NoDead n g0.goban.view) {cs : List GOp}
    (hcs : ∀ c ∈ cs, c.OnBoard n) {es : List (Option PlayError)} (e : g0.run dbg cs = .ok (es, g)) :
    ∃ m', m' ≤ m0 + cs.length ∧ Sim dbg n m' g0.outcome g (g0.abstractly n cs es) ∧
      g.rule.flagIllegal = g0.rule.flagIllegal ∧ (g0.abstractly n cs es).passes ≤ 2 := by
  obtain ⟨⟨m', h1, h2⟩, h3, h4⟩ := Sim.run_any cs (hf.sim hd) (Nat.zero_le _) hcs e
  exact ⟨m', h1, h2, h3, h4⟩

/-- The list of boards shows the list of positions, one by one. -/
def Shows (n : Dim) : List Goban → List Pos → Prop
  | [], [] => True
  | b :: bs, p :: ps => SameOn n b.view p ∧ Shows n bs ps
  | _, _ => False

theorem Matches.shows : ∀ {bs : List Goban} {ps : List Pos}, Matches n bs ps → Shows n bs ps
  | [], [], _ => trivial
  | [], _ :: _, h => by cases h
  | _ :: _, [], h => by cases h
  | _ :: _, _ :: _, h => ⟨h.2.1, h.2.2.shows⟩

theorem firsts_pairwise (l : List Pos) : (Spec.firsts n l).Pairwise (fun a b => ¬ SameOn n a b) := by
  suffices h : ∀ (l : List Pos), (Spec.firsts n l.reverse).Pairwise (fun a b => ¬ SameOn n a b) by
    have := h l.reverse
    rwa [List.reverse_reverse] at this
  intro l
  induction l with
  | nil => exact List.Pairwise.nil
  | cons x l ih =>
    rw [List.reverse_cons, firsts_append]
    split
    · exact ih
    · rename_i hx
      rw [List.pairwise_append]
      refine ⟨ih, by simp, ?_⟩
      intro a ha b hb hab
      rw [List.mem_singleton] at hb
      subst hb
      exact hx ⟨a, ha, hab⟩

theorem Matches.pairwise : ∀ {bs : List Goban} {ps : List Pos}, Matches n bs ps → ps.Pairwise (fun a b => ¬ SameOn n a b) →
    bs.Pairwise (fun a b => a.beq b = .ok false)
  | [], _, _, _ => List.Pairwise.nil
  | b :: bs, [], h, _ => by cases h
  | b :: bs, p :: ps, h, hp => by
    rw [List.pairwise_cons] at hp ⊢
    refine ⟨?_, h.2.2.pairwise hp.2⟩
    intro b' hb'
    obtain ⟨r, e, hr⟩ := beq_ok h.1 (h.2.2.inv b' hb')
    rw [e]
    cases r with
    | false => rfl
    | true =>
      have hsame := hr.1 rfl
      obtain ⟨q, hq, hqs⟩ := (h.2.2.exists (q := p)).1 ⟨b', hb', SameOn.trans (SameOn.symm hsame) h.2.1⟩
      exact absurd (SameOn.symm hqs) (hp.1 q hq)

/-- **C42**. The history holds, in order of first occurrence, exactly the positions from which a stone was played since the
game was created, without repetition: no two of its boards are `==`. -/
theorem C42_history {g0 : Game} {m0 : Nat} (hf : Fresh dbg n m0 g0) (hd : NoDead n g0.goban.view) {cs : List GOp}
    (hcs : ∀ c ∈ cs, c.OnBoard n) {es : List (Option PlayError)} (e : g0.run dbg cs = .ok (es, g)) :
    Shows n g.history (Spec.firsts n (g0.abstractly n cs es).played) ∧ g.history.Pairwise (fun a b => a.beq b = .ok false) := by
  obtain ⟨m', _, hs, _, _⟩ := run_sim hf hd hcs e
  exact ⟨hs.hist.shows, hs.hist.pairwise (firsts_pairwise _)⟩

/-- **C42**, on any game at all: a call never removes or changes an entry of the history. -/
theorem C42_never_shortened {mv : Move} {g' : Game} (e : g.play dbg mv = .ok g') :
    g'.history = g.history ∨ g'.history = g.history ++ [g.goban] := by
  cases mv with
  | pass =>
    unfold Game.play at e
    obtain ⟨_, _, e⟩ := bind_eq_ok e
    cases e; exact Or.inl rfl
  | resign c => cases e; exact Or.inl rfl
  | play x y =>
    rw [play_eq] at e
    obtain ⟨l, e1, e⟩ := bind_eq_ok e
    obtain ⟨s, e2, e⟩ := bind_eq_ok e
    cases e
    exact historyInsert_mem e1

/-! ## C15 -/

/-- The full statement of **C15** (first half), for one position of a game: no accepted play recreates a position from which
an earlier stone was played. It is refuted by `C15_false` and `C15_false_capture`. -/
def C15Full (dbg : Bool) (n : Dim) (s : State) (g : Game) : Prop :=
  ∀ x y g', OnBoard n (x, y) → g.tryPlay dbg (.play x y) = .ok (none, g') → ¬ ∃ b ∈ s.played, SameOn n g'.goban.view b

/-- **C80**, what `check_super_ko` computes: true iff at least three different positions have been played from, the play
captures, and the resulting position is one from which an earlier stone was played. -/
theorem C80_check_super_ko {g0 : Game} {m0 : Nat} (hf : Fresh dbg n m0 g0) (hd : NoDead n g0.goban.view) {cs : List GOp}
    (hcs : ∀ c ∈ cs, c.OnBoard n) {es : List (Option PlayError)} (e : g0.run dbg cs = .ok (es, g)) {p : Coord}
    (hp : OnBoard n p) (he : g.goban.getColor p = .ok none) :
    Safe (65535 ≤ m0 + cs.length) (g.checkSuperKo dbg { coord := p, color := g.turn }) (fun b => (b = true ↔
      3 ≤ (Spec.firsts n (g0.abstractly n cs es).played).length ∧ Spec.Captures n g.goban.view p g.turn ∧
      ∃ b ∈ (g0.abstractly n cs es).played, SameOn n (Spec.play n (!g.rule.flagIllegal.suicide) g.goban.view p g.turn) b)) := by
  obtain ⟨m', hm', hs, _, _⟩ := run_sim hf hd hcs e
  have he' := (getColor_none hs.inv hp).1 he
  refine ((hs.checkSuperKo hp (by rw [← hs.pos p hp]; exact he') (!g.rule.flagIllegal.suicide)).weaken
    (fun h => by have := hs.full h; omega)).mono ?_
  intro b hb
  rw [hb]
  unfold Spec.SuperKoSeen Spec.SuperKo
  rw [captures_congr hs.pos p g.turn, hs.turn]
  apply and_congr_right; intro _
  apply and_congr_right; intro _
  have h1 := play_congr hs.pos (!g.rule.flagIllegal.suicide) p (g0.abstractly n cs es).turn
  constructor
  · rintro ⟨b, hb, h2⟩; exact ⟨b, hb, SameOn.trans h1 h2⟩
  · rintro ⟨b, hb, h2⟩; exact ⟨b, hb, SameOn.trans (SameOn.symm h1) h2⟩

/-- **C15**, the part of the first half that holds: under a rule with super-ko, an accepted play that captures, once three
different positions have been played from, does not recreate a position from which an earlier stone was played. Missing:
plays that capture nothing, and captures while fewer than three positions are recorded (both refuted below). -/
theorem C15_no_repetition_partial {g0 : Game} {m0 : Nat} (hf : Fresh dbg n m0 g0) (hd : NoDead n g0.goban.view) {cs : List GOp}
    (hcs : ∀ c ∈ cs, c.OnBoard n) {es : List (Option PlayError)} (e : g0.run dbg cs = .ok (es, g))
    (hr : g0.rule.flagIllegal.superko = true) {x y : Nat} (hp : OnBoard n (x, y)) {g' : Game}
    (e' : g.tryPlay dbg (.play x y) = .ok (none, g')) (hc : Spec.Captures n g.goban.view (x, y) g.turn)
    (hl : 3 ≤ (Spec.firsts n (g0.abstractly n cs es).played).length) :
    ¬ ∃ b ∈ (g0.abstractly n cs es).played, SameOn n g'.goban.view b := by
  rintro ⟨b, hb, hsame⟩
  obtain ⟨m', hm', hs, hfl, hps⟩ := run_sim hf hd hcs e
  obtain ⟨_, _, hok⟩ := (hs.tryPlay_any (.play x y) hp hps).of_ok e'
  obtain ⟨hps', _, m2, _, hs2⟩ := hok rfl
  rw [hs.tryPlay_play hp, if_neg (by omega)] at e'
  split at e'
  · cases e'
  rename_i he
  have he := Classical.not_not.1 he
  obtain ⟨r, e1, e'⟩ := bind_eq_ok e'
  cases r with
  | some r => cases e'
  | none =>
    obtain ⟨bs, a1, hsu⟩ := hs.checkSuicide hp he
    obtain ⟨bk, a2, hk⟩ := hs.checkKo hp he
    obtain ⟨be, a3, hy⟩ := hs.checkEye hp
    have a0 : g.goban.getColor (x, y) = .ok none := by rw [hs.inv.getColor_view hp, hs.pos _ hp, he]
    have key : Spec.SuperKoSeen n (!g.rule.flagIllegal.suicide) (g0.abstractly n cs es) (x, y) := by
      refine ⟨hl, ?_, b, hb, ?_⟩
      · rw [← hs.turn]; exact (captures_congr hs.pos _ _).1 hc
      · exact SameOn.trans (SameOn.symm hs2.pos) hsame
    rw [checkPointBy_eq a0 a1 a2 a3] at e1
    split at e1
    · cases e1
    split at e1
    · cases e1
    split at e1
    · cases e1
    rw [if_pos (by rw [hfl]; exact hr)] at e1
    obtain ⟨bq, a4, e1⟩ := bind_eq_ok e1
    have := ((hs.checkSuperKo (dbg := dbg) hp he (!g.rule.flagIllegal.suicide)).of_ok a4).2 key
    rw [this] at e1
    cases e1

theorem Sim.played_of_contains {o : Option EndGame} {s : State} (h : Sim dbg n m o g s) {b : Goban} (hb : Inv n b)
    (e : historyContains g.history b = .ok true) : ∃ q ∈ s.played, SameOn n b.view q := by
  obtain ⟨r, e1, hr⟩ := historyContains_ok hb g.history h.histInv
  rw [e1] at e
  cases e
  obtain ⟨q, hq, h2⟩ := mem_firsts.1 ((h.hist.exists).1 (hr.1 rfl))
  exact ⟨q, hq, SameOn.symm h2⟩

/-- From an evaluated script to a refutation of `C15Full`. -/
theorem C15_refute {g0 g g' : Game} {m0 : Nat} (hf : Fresh dbg n m0 g0) (hd : NoDead n g0.goban.view) {cs : List GOp}
    (hcs : ∀ c ∈ cs, c.OnBoard n) {es : List (Option PlayError)} (e : g0.run dbg cs = .ok (es, g)) {x y : Nat}
    (hp : OnBoard n (x, y)) (e' : g.tryPlay dbg (.play x y) = .ok (none, g'))
    (e2 : historyContains g.history g'.goban = .ok true) : ¬ C15Full dbg n (g0.abstractly n cs es) g := by
  obtain ⟨m', hm', hs, hfl, hps⟩ := run_sim hf hd hcs e
  obtain ⟨_, _, hok⟩ := (hs.tryPlay_any (.play x y) hp hps).of_ok e'
  obtain ⟨_, _, m2, _, hs2⟩ := hok rfl
  intro h
  exact h x y g' hp e' (hs.played_of_contains hs2.inv e2)

instance (n : Dim) (c : GOp) : Decidable (c.OnBoard n) := by
  cases c <;> unfold GOp.OnBoard <;> infer_instance

/-- The game of `C15_false`. -/
def superKoScript : List GOp :=
  [.try_ (.play 1 1), .try_ (.play 0 2), .try_ (.play 1 2), .try_ (.play 1 0), .try_ (.play 0 3), .try_ (.play 0 1),
   .try_ (.play 0 0), .try_ (.play 0 1), .try_ .pass]

/-- **C15** is false as stated: on a 4 × 4 board under the Chinese rule (which has super-ko) the game `superKoScript` is
accepted move by move from the empty board, and then the play (0, 2), which captures nothing, is accepted although it
recreates a position from which an earlier stone was played. -/
theorem C15_false (dbg : Bool) : ∃ g0 cs es g, Fresh dbg 4 0 g0 ∧ g0.rule = CHINESE ∧ NoDead 4 g0.goban.view ∧
    (∀ c ∈ cs, GOp.OnBoard 4 c) ∧ g0.run dbg cs = .ok (es, g) ∧ (∀ e ∈ es, e = none) ∧
    ¬ C15Full dbg 4 (g0.abstractly 4 cs es) g := by
  have key : okAnd (do
      let g0 ← Game.new (.custom 4 4) CHINESE
      let (es, g) ← g0.run dbg superKoScript
      let (e, g') ← g.tryPlay dbg (.play 0 2)
      let b ← historyContains g.history g'.goban
      .ok (es, e, b)) (fun r => (∀ e ∈ r.1, e = none) ∧ r.2.1 = none ∧ r.2.2 = true) = true := by
    cases dbg <;> decide +kernel
  obtain ⟨r, e, hr⟩ := okAnd_iff.1 key
  obtain ⟨g0, e0, e⟩ := bind_eq_ok e
  obtain ⟨⟨es, g⟩, e1, e⟩ := bind_eq_ok e
  obtain ⟨⟨e3, g'⟩, e2, e⟩ := bind_eq_ok e
  obtain ⟨b, e4, e⟩ := bind_eq_ok e
  cases e
  simp only [decide_eq_true_eq] at hr
  obtain ⟨h1, rfl, rfl⟩ := hr
  have hf : Fresh dbg 4 0 g0 := new_fresh (by decide) e0
  have hrule : g0.rule = CHINESE := by
    unfold Game.new at e0
    obtain ⟨b, _, e0⟩ := bind_eq_ok e0
    cases e0; rfl
  have hd : NoDead 4 g0.goban.view := C10_no_dead_groups (new_legal (dbg := dbg) (by decide) e0)
  have hcs : ∀ c ∈ superKoScript, GOp.OnBoard 4 c := by decide
  exact ⟨g0, superKoScript, es, g, hf, hrule, hd, hcs, e1, h1, C15_refute hf hd hcs e1 (by decide) e2 e4⟩

/-- The start position of `C15_false_capture`: a black stone on (0, 1) that can be given away together with a second one. -/
def sendTwoSetup : GameBuilder :=
  { GameBuilder.default with
    size := (4, 4)
    setup := [⟨(0, 1), .black⟩, ⟨(0, 3), .black⟩, ⟨(1, 2), .black⟩, ⟨(1, 0), .white⟩, ⟨(1, 1), .white⟩] }

/-- **C15** is false even for plays that capture: from a set-up position under the Chinese rule, Black (0, 0), White (0, 2)
(capturing two), Black (0, 1) (capturing one) are all accepted and the start position is back. Super-ko is not looked at
because only two positions are recorded. -/
theorem C15_false_capture (dbg : Bool) : ∃ g0 cs es g, Fresh dbg 4 5 g0 ∧ g0.rule = CHINESE ∧ NoDead 4 g0.goban.view ∧
    (∀ c ∈ cs, GOp.OnBoard 4 c) ∧ g0.run dbg cs = .ok (es, g) ∧ (∀ e ∈ es, e = none) ∧
    g.willCapture dbg (0, 1) = .ok true ∧ ¬ C15Full dbg 4 (g0.abstractly 4 cs es) g := by
  have key : okAnd (do
      let g0 ← sendTwoSetup.buildInner dbg
      let (es, g) ← g0.run dbg [.try_ (.play 0 0), .try_ (.play 0 2)]
      let (e, g') ← g.tryPlay dbg (.play 0 1)
      let b ← historyContains g.history g'.goban
      .ok (g0, g, es, e, b)) (fun r => r.1.goban.allAlive ∧ r.1.rule = CHINESE ∧ r.2.1.willCapture dbg (0, 1) = .ok true ∧
        (∀ e ∈ r.2.2.1, e = none) ∧ r.2.2.2.1 = none ∧ r.2.2.2.2 = true) = true := by
    cases dbg <;> decide +kernel
  obtain ⟨r, e, hr⟩ := okAnd_iff.1 key
  obtain ⟨g0, e0, e⟩ := bind_eq_ok e
  obtain ⟨⟨es, g⟩, e1, e⟩ := bind_eq_ok e
  obtain ⟨⟨e3, g'⟩, e2, e⟩ := bind_eq_ok e
  obtain ⟨b, e4, e⟩ := bind_eq_ok e
  cases e
  simp only [decide_eq_true_eq] at hr
  obtain ⟨h1, hrule, hcap, hes, rfl, rfl⟩ := hr
  have hf : Fresh dbg 4 5 g0 := .build (b := sendTwoSetup) (by decide) rfl rfl (by decide) (by decide) e0
  have hd : NoDead 4 g0.goban.view := noDead_of_allAlive hf.spec.board.inv.1 h1
  have hcs : ∀ c ∈ [GOp.try_ (.play 0 0), .try_ (.play 0 2)], GOp.OnBoard 4 c := by decide
  exact ⟨g0, _, es, g, hf, hrule, hd, hcs, e1, hes, hcap, C15_refute hf hd hcs e1 (by decide) e2 e4⟩

/-- Non-vacuity of the partial theorems of C15: a game in which `check_super_ko` says true and one in which it says false,
both for capturing plays with at least three positions recorded. -/
example : ∃ g, Legal true 4 9 g ∧ (g.rule.flagIllegal.superko ∧ 3 ≤ g.history.length ∧ g.willCapture true (1, 1) = .ok true ∧
    g.checkSuperKo true { coord := (1, 1), color := g.turn } = .ok true : Bool) = true :=
  mkGame_exists (rule := CHINESE) (l := exKo) (by decide) (by decide +kernel)

example : ∃ g, Legal true 4 8 g ∧ (g.rule.flagIllegal.superko ∧ 3 ≤ g.history.length ∧ g.willCapture true (1, 2) = .ok true ∧
    g.checkSuperKo true { coord := (1, 2), color := g.turn } = .ok false : Bool) = true :=
  mkGame_exists (rule := CHINESE) (l := exKo.dropLast) (by decide) (by decide +kernel)

/-! ## C28 -/

/-- The full statement of **C28**, for one game and one point. It is refuted by `C28_false`. -/
def C28Full (dbg : Bool) (g : Game) (x y : Nat) : Prop :=
  ∀ g', g.tryPlay dbg (.play x y) = .ok (none, g') → ∃ b, g.playForVerification dbg (x, y) = .ok b ∧ b.beq g'.goban = .ok true

/-- **C28** for plays that are not suicide, in particular for every accepted play under a rule that forbids suicide: the
board of `play_for_verification` is `==` to the board after `play`. Missing: accepted suicides. -/
theorem C28_verification_partial (h : Legal dbg n m g) {x y : Nat} (hp : OnBoard n (x, y)) {g' : Game}
    (e : g.tryPlay dbg (.play x y) = .ok (none, g'))
    (hns : g.rule.flagIllegal.suicide = true ∨ ¬ Suicide n g.goban.view (x, y) g.turn) :
    Safe (65535 ≤ m) (g.playForVerification dbg (x, y)) (fun b => b.beq g'.goban = .ok true) := by
  obtain ⟨o, s, m', hm', hps, hs⟩ := h.sim
  obtain ⟨_, _, hok⟩ := (hs.tryPlay_any (.play x y) hp hps).of_ok e
  obtain ⟨hps', _, m2, _, hs2⟩ := hok rfl
  rw [hs.tryPlay_play hp, if_neg (by omega)] at e
  split at e
  · cases e
  rename_i he
  have he := Classical.not_not.1 he
  have hns' : ¬ Suicide n s.pos (x, y) s.turn := by
    rcases hns with hsu | hns
    · obtain ⟨r, e1, e⟩ := bind_eq_ok e
      cases r with
      | some r => cases e
      | none => exact refusal_suicide ((hs.checkPointBy hp he _ (Or.inl hsu)).of_ok e1).symm hsu
    · rw [← suicide_congr hs.pos hp, ← hs.turn]; exact hns
  refine ((hs.verification hp he).weaken (fun hf => by have := hs.full hf; omega)).mono ?_
  rintro b ⟨hI, hv, _⟩
  obtain ⟨r, e1, hr⟩ := beq_ok hI hs2.inv
  rw [e1, hr.2 (SameOn.trans (hv hns') (SameOn.symm (SameOn.trans hs2.pos (play_eq_after _ hs.noDead hp he hns'))))]

/-- A rule without any prohibition. -/
def FREE : Rule := { CHINESE with flagIllegal := { ko := false, superko := false, suicide := false, fillEye := false } }

/-- **C81**: for an accepted play the two boards are `==` if and only if the play is not suicide. -/
theorem C81_preview_eq (h : Legal dbg n m g) {x y : Nat} (hp : OnBoard n (x, y)) {g' : Game}
    (e : g.tryPlay dbg (.play x y) = .ok (none, g')) :
    Safe (65535 ≤ m) (g.playForVerification dbg (x, y)) (fun b => ∃ r, b.beq g'.goban = .ok r ∧
      (r = true ↔ ¬ Suicide n g.goban.view (x, y) g.turn)) := by
  by_cases hns : g.rule.flagIllegal.suicide = true ∨ ¬ Suicide n g.goban.view (x, y) g.turn
  · refine (C28_verification_partial h hp e hns).mono ?_
    intro b hb
    refine ⟨true, hb, ?_⟩
    simp only [true_iff]
    rcases hns with hsu | hns
    · intro hs
      obtain ⟨o, s, m', hm', hps, hs0⟩ := h.sim
      obtain ⟨_, _, hok⟩ := (hs0.tryPlay_any (.play x y) hp hps).of_ok e
      obtain ⟨hps', _⟩ := hok rfl
      rw [hs0.tryPlay_play hp, if_neg (by omega)] at e
      split at e
      · cases e
      rename_i he
      have he := Classical.not_not.1 he
      obtain ⟨r, e1, e⟩ := bind_eq_ok e
      cases r with
      | some r => cases e
      | none =>
        refine refusal_suicide ((hs0.checkPointBy hp he _ (Or.inl hsu)).of_ok e1).symm hsu ?_
        rw [← suicide_congr hs0.pos hp, ← hs0.turn]; exact hs
    · exact hns
  · have hsu : g.rule.flagIllegal.suicide = false := by
      cases hf : g.rule.flagIllegal.suicide with
      | false => rfl
      | true => exact absurd (Or.inl hf) hns
    have hs : Suicide n g.goban.view (x, y) g.turn := by
      by_contra hh; exact hns (Or.inr hh)
    obtain ⟨o, s, m', hm', hps, hs0⟩ := h.sim
    obtain ⟨_, _, hok⟩ := (hs0.tryPlay_any (.play x y) hp hps).of_ok e
    obtain ⟨hps', _, m2, _, hs2⟩ := hok rfl
    rw [hs0.tryPlay_play hp, if_neg (by omega)] at e
    split at e
    · cases e
    rename_i he
    have he := Classical.not_not.1 he
    have hs' : Suicide n s.pos (x, y) s.turn := by
      rw [← suicide_congr hs0.pos hp, ← hs0.turn]; exact hs
    refine ((hs0.verification hp he).weaken (fun hf => by have := hs0.full hf; omega)).mono ?_
    rintro b ⟨hI, _, hv⟩
    obtain ⟨r, e1, hr⟩ := beq_ok hI hs2.inv
    refine ⟨r, e1, ?_⟩
    rw [hr]
    refine ⟨fun hsame => ?_, fun hh => absurd hs hh⟩
    have hkeep : Spec.removeDead n (place s.pos (x, y) s.turn) s.turn.opp (x, y) = some s.turn := by
      unfold Spec.removeDead
      rw [if_neg, place_self]
      rintro ⟨h1, _⟩
      rw [place_self] at h1
      exact Color.ne_opp _ (Option.some.inj h1)
    have h1 := hsame (x, y) hp
    rw [hv _ hp, hs2.pos _ hp] at h1
    have h2 : (Spec.apply n g.rule.flagIllegal.forbidden s (Move.call (.play x y))).pos (x, y) = none := by
      show Spec.play n (!g.rule.flagIllegal.suicide) s.pos (x, y) s.turn (x, y) = none
      rw [hsu]
      show Spec.removeDead n (Spec.removeDead n (place s.pos (x, y) s.turn) s.turn.opp) s.turn (x, y) = none
      unfold Spec.removeDead at hkeep ⊢
      rw [if_pos]
      exact ⟨hkeep, hs'⟩
    rw [h2, hsu] at h1
    exact absurd (h1.symm.trans hkeep) (by simp)

/-- **C28** is false as stated: under a rule that allows suicide, `play_for_verification` leaves the suicide stone on the
board and `play` removes it. -/
theorem C28_false (dbg : Bool) : ∃ g, Legal dbg 3 3 g ∧ g.rule = FREE ∧ ¬ C28Full dbg g 0 0 := by
  have key : okAnd (mkGame dbg 3 FREE [.try_ (.play 0 1), .try_ (.play 2 2), .try_ (.play 1 0)]) (fun g => g.rule = FREE ∧ okAnd (do
      let (e, g') ← g.tryPlay dbg (.play 0 0)
      let b ← g.playForVerification dbg (0, 0)
      let r ← b.beq g'.goban
      .ok (e, r)) (fun r => r.1 = none ∧ r.2 = false)) = true := by
    cases dbg <;> decide +kernel
  obtain ⟨g, hl, hg⟩ := mkGame_exists (by decide) key
  simp only [decide_eq_true_eq] at hg
  obtain ⟨hrule, hg⟩ := hg
  obtain ⟨r, e, hr⟩ := okAnd_iff.1 hg
  obtain ⟨⟨e3, g'⟩, e1, e⟩ := bind_eq_ok e
  obtain ⟨b, e2, e⟩ := bind_eq_ok e
  obtain ⟨r', e4, e⟩ := bind_eq_ok e
  cases e
  simp only [decide_eq_true_eq] at hr
  obtain ⟨rfl, rfl⟩ := hr
  refine ⟨g, hl, hrule, ?_⟩
  intro h
  obtain ⟨b', e5, e6⟩ := h g' e1
  rw [e2] at e5
  cases e5
  rw [e4] at e6
  cases e6

/-- Non-vacuity of `C28_verification_partial`: an accepted capture. -/
example : ∃ g, Legal true 4 8 g ∧ ((g.tryPlay true (.play 1 2)).toOption.map (fun r => (r.1, r.2.prisoners)) = some (none, (1, 0)) : Bool)
    = true :=
  mkGame_exists (rule := JAPANESE) (l := exKo.dropLast) (by decide) (by decide +kernel)

end Model
