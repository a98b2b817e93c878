import Verif.Proofs.Life
import Verif.Proofs.Seen
import Verif.Props.Simulate
/-!
# Stones that cannot be captured: C68
-/

namespace Model
open Spec (OnBoard Adj Linked Lives TwoEyes EyeOf FullEyeOf)

variable {dbg : Bool} {n : Dim} {m : Nat} {g : Game} {c : Color} {X : Coord → Prop} {Rs : (Coord → Prop) → Prop}

/-- Games reached from `g` by calls with on-board coordinates during which the player `c` does not ask for a stone on a point of `P`. -/
inductive Sparing (dbg : Bool) (n : Dim) (c : Color) (P : Coord → Prop) (g : Game) : Game → Prop
  | start : Sparing dbg n c P g g
  | call {g1 g2 : Game} {op : GOp} {e : Option PlayError} (h : Sparing dbg n c P g g1) (hop : op.OnBoard n)
      (hsp : g1.turn = c → ∀ x y, op = .try_ (.play x y) → ¬ P (x, y)) (e1 : g1.call dbg op = .ok (e, g2)) : Sparing dbg n c P g g2

/-- One call. -/
theorem Legal.call (h : Legal dbg n m g) {op : GOp} (hop : op.OnBoard n) {e : Option PlayError} {g' : Game}
    (e1 : g.call dbg op = .ok (e, g')) : ∃ m', Legal dbg n m' g' := by
  cases op with
  | try_ mv => exact ⟨_, .tryPlay h hop e1⟩
  | resume => cases e1; exact ⟨_, .resume h⟩
  | setKomi k => cases e1; exact ⟨_, .setKomi h⟩

theorem lives_call (h : Legal dbg n m g) (hl : Lives n g.goban.view c (!g.rule.flagIllegal.suicide) X Rs) {op : GOp}
    (hop : op.OnBoard n) (hsp : g.turn = c → ∀ x y, op = .try_ (.play x y) → ∀ R, Rs R → ¬ R (x, y)) {e : Option PlayError}
    {g' : Game} (e1 : g.call dbg op = .ok (e, g')) :
    Lives n g'.goban.view c (!g'.rule.flagIllegal.suicide) X Rs ∧
      ∀ x q, X x → Linked n g.goban.view x q → Linked n g'.goban.view x q := by
  obtain ⟨o, s, m', _, hps, hs⟩ := h.sim
  obtain ⟨_, ⟨m'', _, hs'⟩, hf, _⟩ := (hs.call_seen op hop hps).of_ok e1
  dsimp only at hs' hf
  rw [hf]
  have h0 : Lives n s.pos c (!g.rule.flagIllegal.suicide) X Rs := hl.congr hs.pos
  have key : Lives n (Spec.stepSeen n g.rule.flagIllegal.forbidden s op.call).2.pos c (!g.rule.flagIllegal.suicide) X Rs ∧
      ∀ x q, X x → Linked n s.pos x q → Linked n (Spec.stepSeen n g.rule.flagIllegal.forbidden s op.call).2.pos x q := by
    unfold Spec.stepSeen
    by_cases ha : Spec.answerSeen n g.rule.flagIllegal.forbidden s op.call = .ok
    swap
    · rw [if_neg ha]; exact ⟨h0, fun _ _ _ h => h⟩
    rw [if_pos ha]
    cases op with
    | resume => exact ⟨h0, fun _ _ _ h => h⟩
    | setKomi k => exact ⟨h0, fun _ _ _ h => h⟩
    | try_ mv =>
      cases mv with
      | pass => exact ⟨h0, fun _ _ _ h => h⟩
      | resign d => exact ⟨h0, fun _ _ _ h => h⟩
      | play x y =>
        have he : s.pos (x, y) = none := by
          refine Classical.byContradiction fun hne => ?_
          change Spec.answerSeen n g.rule.flagIllegal.forbidden s (.play (x, y)) = .ok at ha
          unfold Spec.answerSeen at ha
          dsimp only at ha
          split at ha
          · cases ha
          · cases ha
        exact h0.play hs.noDead he (fun ht R hR => hsp (by rw [hs.turn]; exact ht) x y rfl R hR)
  refine ⟨key.1.congr (SameOn.symm hs'.pos), fun x q hx hxq => ?_⟩
  have hO := (hl.stones x hx).1
  exact linked_congr (SameOn.symm hs'.pos) hO (key.2 x q hx (linked_congr hs.pos hO hxq))

/-! ## C68 -/

/-- **C68**: stones that live by Benson's criterion are there after any calls in which their player puts no stone into the regions
they live by; what the opponent asks for does not matter. -/
theorem C68_life (h : Legal dbg n m g) (hl : Lives n g.goban.view c (!g.rule.flagIllegal.suicide) X Rs) {g' : Game}
    (hsp : Sparing dbg n c (fun p => ∃ R, Rs R ∧ R p) g g') {x : Coord} (hx : X x) : g'.goban.getColor x = .ok (some c) := by
  have key : (∃ m', Legal dbg n m' g') ∧ Lives n g'.goban.view c (!g'.rule.flagIllegal.suicide) X Rs := by
    induction hsp with
    | start => exact ⟨⟨m, h⟩, hl⟩
    | call _ hop hsp e1 ih =>
      obtain ⟨⟨m1, h1⟩, hl1⟩ := ih
      exact ⟨h1.call hop e1, (lives_call h1 hl1 hop (fun ht x y hxy R hR hxy' => hsp ht x y hxy ⟨R, hR, hxy'⟩) e1).1⟩
  obtain ⟨⟨m', h'⟩, hl'⟩ := key
  obtain ⟨_, _, _, _, _, hs⟩ := h'.sim
  rw [hs.inv.getColor_view (hl'.stones x hx).1, (hl'.stones x hx).2]

/-- Two eyes stay two eyes of the group. -/
theorem twoEyes_call (h : Legal dbg n m g) {s p q : Coord} (h2 : TwoEyes n g.goban.view c s p q) {op : GOp} (hop : op.OnBoard n)
    (hsp : g.turn = c → ∀ x y, op = .try_ (.play x y) → (x, y) ≠ p ∧ (x, y) ≠ q) {e : Option PlayError} {g' : Game}
    (e1 : g.call dbg op = .ok (e, g')) : TwoEyes n g'.goban.view c s p q ∧
      ∀ x, Linked n g.goban.view s x → Linked n g'.goban.view s x := by
  obtain ⟨hl', hk⟩ := lives_call h (h2.lives (sa := !g.rule.flagIllegal.suicide)) hop (fun ht x y hxy R hR hxy' => by
    rcases hR with rfl | rfl
    · exact (hsp ht x y hxy).1 hxy'
    · exact (hsp ht x y hxy).2 hxy') e1
  obtain ⟨m', h'⟩ := h.call hop e1
  obtain ⟨_, s', _, _, _, hs'⟩ := h'.sim
  have hkeep : ∀ x, Linked n g.goban.view s x → Linked n g'.goban.view s x := fun x hx => hk s x (.refl _) hx
  have hempty : ∀ R : Coord → Prop, (R = (· = p) ∨ R = (· = q)) → ∀ e, R = (· = e) → g'.goban.view e = none := by
    rintro R hR e rfl
    obtain ⟨r, hr, he⟩ := (hl'.congr hs'.pos).empty hs'.noDead hR ⟨e, rfl⟩
    subst hr
    rw [hs'.pos _ ((hl'.inside _ hR _ rfl).1)]
    exact he
  obtain ⟨hs, hv, hpq, hp, hq⟩ := h2
  refine ⟨⟨hs, (hl'.stones s (.refl _)).2, hpq, ⟨hp.1, hempty _ (Or.inl rfl) p rfl, fun r ha ho => hkeep _ (hp.2.2 r ha ho)⟩,
    ⟨hq.1, hempty _ (Or.inr rfl) q rfl, fun r ha ho => hkeep _ (hq.2.2 r ha ho)⟩⟩, hkeep⟩

/-- **C68**, two eyes: a group with two eyes keeps its stones and its eyes as long as its player does not fill one of them. -/
theorem C68_two_eyes (h : Legal dbg n m g) {s p q : Coord} (h2 : TwoEyes n g.goban.view c s p q) {g' : Game}
    (hsp : Sparing dbg n c (fun r => r = p ∨ r = q) g g') : g'.goban.getColor p = .ok none ∧ g'.goban.getColor q = .ok none ∧
      ∀ x, Linked n g.goban.view s x → g'.goban.getColor x = .ok (some c) := by
  have key : (∃ m', Legal dbg n m' g') ∧ TwoEyes n g'.goban.view c s p q ∧
      ∀ x, Linked n g.goban.view s x → Linked n g'.goban.view s x := by
    induction hsp with
    | start => exact ⟨⟨m, h⟩, h2, fun _ h => h⟩
    | call _ hop hsp e1 ih =>
      obtain ⟨⟨m1, h1⟩, hl1, hk⟩ := ih
      obtain ⟨h3, h4⟩ := twoEyes_call h1 hl1 hop (fun ht x y hxy =>
        ⟨fun h' => hsp ht x y hxy (Or.inl h'), fun h' => hsp ht x y hxy (Or.inr h')⟩) e1
      exact ⟨h1.call hop e1, h3, fun x hx => h4 x (hk x hx)⟩
  obtain ⟨⟨m', h'⟩, ⟨hs, hv, _, hp, hq⟩, hk⟩ := key
  obtain ⟨_, _, _, _, _, hsim⟩ := h'.sim
  refine ⟨by rw [hsim.inv.getColor_view hp.1, hp.2.1], by rw [hsim.inv.getColor_view hq.1, hq.2.1], fun x hx => ?_⟩
  have hx' := hk x hx
  rw [hsim.inv.getColor_view (linked_onBoard hx' hs), linked_same hx', hv]

/-- **C68**, the opponent in an eye: refused as suicide if the rule forbids suicide. -/
theorem C68_refused (h : Legal dbg n m g) {s p q : Coord} (h2 : TwoEyes n g.goban.view g.turn.opp s p q) (hps : g.passes ≠ 2)
    (hsu : g.rule.flagIllegal.suicide = true) : Safe g.Full (g.tryPlay dbg (.play p.1 p.2)) (fun r => r = (some .suicide, g)) := by
  obtain ⟨o, st, m', _, hps2, hs⟩ := h.sim
  have hp := h2.2.2.2.1
  have hl := (h2.lives (sa := false)).congr hs.pos
  have he : st.pos p = none := by rw [← hs.pos p hp.1]; exact hp.2.1
  have hsui : Spec.Suicide n st.pos p st.turn := by
    rintro ⟨t, r, h1, h3, h4, h5⟩
    have hnb : ∀ r, Adj p r → OnBoard n r → Spec.removeDead n (Spec.place st.pos p st.turn) st.turn.opp r = some st.turn.opp := by
      intro r ha ho
      have hx := hp.2.2 r ha ho
      have hlib := hl.place hs.noDead he st.turn hx
      have hcol := (hl.stones r hx).2
      rw [hs.turn] at hcol
      unfold Spec.removeDead
      rw [if_neg (fun h' => h'.2 hlib), place_ne, hcol]
      rintro rfl
      rw [he] at hcol; cases hcol
    have hpp : Spec.removeDead n (Spec.place st.pos p st.turn) st.turn.opp p = some st.turn :=
      removeDead_other (place_self _ _ _) (Color.ne_opp _)
    have ht : t = p := by
      clear h3
      induction h1 with
      | refl => rfl
      | step _ ha ho heq ih =>
        exfalso
        rw [ih] at ha heq
        rw [hnb _ ha ho, hpp] at heq
        exact some_ne_opp heq.symm
    subst ht
    rw [hnb r h3 h4] at h5
    cases h5
  rcases hs.tryPlay_any (.play p.1 p.2) hp.1 hps2 with ⟨⟨e, g'⟩, e1, _, h3, _⟩ | hpan
  swap
  · exact Or.inr hpan
  refine Or.inl ⟨(e, g'), e1, ?_⟩
  have ha := (hs.tryPlay_answer (.play p.1 p.2) hp.1 hps2).of_ok e1
  have hans : Spec.answerSeen n g.rule.flagIllegal.forbidden st (Move.play p.1 p.2).call = .suicide := by
    show Spec.answerSeen n g.rule.flagIllegal.forbidden st (.play p) = .suicide
    unfold Spec.answerSeen
    dsimp only
    rw [if_neg (by rw [← hs.passes]; exact hps), if_neg (by rw [he]; simp), if_pos ⟨hsu, hsui⟩]
  rw [hans] at ha
  dsimp only at ha h3
  have : e = some .suicide := by
    cases e with
    | none => cases ha
    | some e => cases e <;> first | rfl | cases ha
  subst this
  rw [h3 (by simp)]

/-! ### Simulations and play-outs -/

theorem fullEye_eye {pos : Spec.Pos} {s : Coord} (hv : pos s = some c) {p : Coord} (h : FullEyeOf n pos s p) :
    Spec.Eye n pos c p := by
  obtain ⟨⟨hp, he, hn⟩, hd⟩ := h
  refine ⟨he, fun q ha ho => by rw [linked_same (hn q ha ho), hv], Or.inl ?_⟩
  have hall : ∀ q ∈ Spec.corners n p, pos q = some c := by
    intro q hq
    unfold Spec.corners at hq
    rw [List.mem_filter, decide_eq_true_eq] at hq
    obtain ⟨hq, ho⟩ := hq
    have : (q.1 + 1 = p.1 ∨ p.1 + 1 = q.1) ∧ (q.2 + 1 = p.2 ∨ p.2 + 1 = q.2) := by
      unfold Spec.diagonals at hq
      simp only [List.mem_filterMap, id, List.mem_cons, List.not_mem_nil, or_false, exists_eq_right] at hq
      rcases hq with hq | hq | hq | hq
      · cases hq; exact ⟨Or.inr rfl, Or.inr rfl⟩
      all_goals
        split at hq
        · rename_i h'
          cases hq
          dsimp only
          omega
        · cases hq
    rw [linked_same (hd q ho this.1 this.2), hv]
  have hlen : (Spec.corners n p).length ≤ 4 := by
    unfold Spec.corners
    refine Nat.le_trans (List.length_filter_le _ _) (Nat.le_trans (List.length_filterMap_le _ _) ?_)
    simp [Spec.diagonals]
  unfold Spec.safeCorners
  rw [List.filter_eq_self.2 (fun q hq => by rw [decide_eq_true_eq]; exact hall q hq)]
  omega

/-- The group of `s` has the two full eyes `p` and `q`. -/
def TwoFull (n : Dim) (pos : Spec.Pos) (c : Color) (s p q : Coord) : Prop :=
  TwoEyes n pos c s p q ∧ FullEyeOf n pos s p ∧ FullEyeOf n pos s q

/-- A move that is not in an eye of its player, as `check_eye` sees it, keeps full eyes. -/
theorem twoFull_move (h : Legal dbg n m g) {s p q : Coord} (h2 : TwoFull n g.goban.view c s p q) {mv : Move} (hmv : mv.OnBoard n)
    (hne : ∀ x y, mv = .play x y → g.checkEye dbg { coord := (x, y), color := g.turn } = .ok false) {e : Option PlayError} {g' : Game}
    (e1 : g.tryPlay dbg mv = .ok (e, g')) : TwoFull n g'.goban.view c s p q ∧
      ∀ x, Linked n g.goban.view s x → Linked n g'.goban.view s x := by
  obtain ⟨h2, hp, hq⟩ := h2
  obtain ⟨_, _, _, _, _, hs⟩ := h.sim
  have eye : ∀ r, FullEyeOf n g.goban.view s r → g.turn = c → ∀ x y, mv = .play x y → (x, y) ≠ r := by
    rintro r hr rfl x y rfl rfl
    obtain ⟨b, e2, hb⟩ := checkEye_ok (dbg := dbg) (c := g.turn) hs.inv hr.1.1
    rw [hne x y rfl] at e2
    cases e2
    exact absurd (hb.2 (fullEye_eye h2.2.1 hr)) (by simp)
  obtain ⟨h3, hk⟩ := twoEyes_call (op := .try_ mv) h h2 hmv (fun ht x y hxy => by
    cases hxy
    exact ⟨eye p hp ht x y rfl, eye q hq ht x y rfl⟩) e1
  exact ⟨⟨h3, ⟨h3.2.2.2.1, fun r ho h1 h2 => hk r (hp.2 r ho h1 h2)⟩, ⟨h3.2.2.2.2, fun r ho h1 h2 => hk r (hq.2 r ho h1 h2)⟩⟩, hk⟩

/-- What every round of the simulation keeps holds at its end. -/
theorem simulate_keeps {best : Nat → Game → List Move → Move} (hbest : FromList best) {P : Game → Prop}
    (hP : ∀ (m : Nat) (g1 g2 : Game) (mv : Move), Legal dbg n m g1 → P g1 → mv.OnBoard n → g1.tryPlay dbg mv = .ok (none, g2) →
      (∀ x y, mv = .play x y → g1.checkEye dbg { coord := (x, y), color := g1.turn } = .ok false) → P g2) :
    ∀ (fuel : Nat) {m : Nat} {g g' : Game}, Legal dbg n m g → P g → g.simulate dbg best fuel = .ok g' → P g'
  | 0, m, g, g', _, hp, e => by
    unfold Game.simulate at e
    split at e
    · cases e; exact hp
    · cases e
  | k + 1, m, g, g', h, hp, e => by
    unfold Game.simulate at e
    cases ho : g.isOver with
    | true => rw [ho] at e; cases e; exact hp
    | false =>
      rw [ho] at e
      obtain ⟨l, e1, e⟩ := bind_eq_ok e
      obtain ⟨g2, e2, e⟩ := bind_eq_ok e
      obtain ⟨h1, h2, h3, _⟩ := ((C67_round hbest h ho k).of_ok e1).of_ok e2
      have hmv : (best k g l).OnBoard n := by
        cases hb : best k g l with
        | play x y => exact (h3 x y hb).1
        | pass => trivial
        | resign c => trivial
      exact simulate_keeps hbest hP k h2 (hP m g g2 _ h hp hmv h1 (fun x y hxy => (h3 x y hxy).2)) e

/-- **C68**, simulations: the loop behind `dead_stones` never takes a group with two full eyes, whatever the search chooses. -/
theorem C68_simulation {best : Nat → Game → List Move → Move} (hbest : FromList best) (h : Legal dbg n m g) {s p q : Coord}
    (h2 : TwoEyes n g.goban.view c s p q) (hp : FullEyeOf n g.goban.view s p) (hq : FullEyeOf n g.goban.view s q) {fuel : Nat}
    {g' : Game} (e : g.simulate dbg best fuel = .ok g') {x : Coord} (hx : Linked n g.goban.view s x) :
    g'.goban.getColor x = .ok (some c) := by
  have := simulate_keeps hbest (P := fun g1 => (∃ m, Legal dbg n m g1) ∧ TwoFull n g1.goban.view c s p q ∧ Linked n g1.goban.view s x)
    (by
      rintro m g1 g2 mv hl ⟨_, h1, h3⟩ hmv e1 hne
      obtain ⟨h4, h5⟩ := twoFull_move hl h1 hmv hne e1
      exact ⟨⟨_, .tryPlay hl hmv e1⟩, h4, h5 x h3⟩) fuel h ⟨⟨m, h⟩, ⟨h2, hp, hq⟩, hx⟩ e
  obtain ⟨⟨m', h'⟩, ⟨⟨hs, hv, _⟩, _⟩, hx'⟩ := this
  obtain ⟨_, _, _, _, _, hsim⟩ := h'.sim
  rw [hsim.inv.getColor_view (linked_onBoard hx' hs), linked_same hx', hv]

/-- **C68**, `dead_stones` never names a group with two full eyes. -/
theorem C68_not_dead {best : Nat → Game → List Move → Move} (hbest : FromList best) (h : Legal dbg n m g) {s p q : Coord}
    (h2 : TwoEyes n g.goban.view c s p q) (hp : FullEyeOf n g.goban.view s p) (hq : FullEyeOf n g.goban.view s q)
    {l : List Nat} (e : g.deadStones dbg best (2 * lifeOf n + 2) = .ok l) {k : Nat} {ss : List Stone}
    (ek : g.goban.chainStonesIdx dbg k = .ok ss) (hs : { coord := s, color := c } ∈ ss) : k ∉ l := by
  intro hk
  rcases C67_dead_stones hbest h with ⟨_, e'⟩ | ⟨g', fl, l', e1, _, hfl, e', _, hl⟩
  · rw [e] at e'; cases e'
  rw [e] at e'; cases e'
  obtain ⟨hf, ss', t, ek', ht, hgone⟩ := (hl k).1 hk
  rw [ek] at ek'; cases ek'
  obtain ⟨m1, _, hr⟩ := h.reach
  obtain ⟨fl', e2, _, hfl'⟩ := C91_floating_stones hr
  rw [hfl] at e2; cases e2
  obtain ⟨grp, hg⟩ := ((hfl' k).1 hf).1
  obtain ⟨ss', hs2⟩ := group_spec (dbg := dbg) hr.inv (live_ch.1 hg)
  rw [hs2.stones] at ek; cases ek
  have hlk : Linked n g.goban.view s t.coord := (hs2.linked hr.inv (live_ch.1 hg) hs).1 (List.mem_map_of_mem ht)
  have := C68_simulation hbest h h2 hp hq e1 hlk
  rw [hs2.color t ht, ← hs2.color _ hs] at hgone
  exact hgone this

theorem fastPlayRandom_eye : ∀ (v : List Coord) {mv : Move}, g.fastPlayRandom dbg v = .ok mv → mv = .pass ∨
    ∃ p ∈ v, mv = .play p.1 p.2 ∧ g.checkPoint dbg p = .ok none ∧ g.checkEye dbg { coord := p, color := g.turn } = .ok false
  | [], _, e => by cases e; exact Or.inl rfl
  | p :: v, mv, e => by
    unfold Game.fastPlayRandom at e
    obtain ⟨r, e1, e⟩ := bind_eq_ok e
    have ih : g.fastPlayRandom dbg v = .ok mv → mv = .pass ∨ ∃ p' ∈ p :: v, mv = .play p'.1 p'.2 ∧
        g.checkPoint dbg p' = .ok none ∧ g.checkEye dbg { coord := p', color := g.turn } = .ok false := fun e =>
      (fastPlayRandom_eye v e).imp_right (fun ⟨p', h1, h2⟩ => ⟨p', List.mem_cons_of_mem p h1, h2⟩)
    cases r with
    | some r => exact ih e
    | none =>
      obtain ⟨b, e2, e⟩ := bind_eq_ok e
      cases b with
      | true => exact ih e
      | false => cases e; exact Or.inr ⟨p, by simp, rfl, e1, e2⟩

/-- **C68**, play-outs: the play-outs of the search never take a group with two full eyes. -/
theorem C68_playout (h : Legal dbg n m g) {s p q : Coord}
    (h2 : TwoEyes n g.goban.view c s p q) (hp : FullEyeOf n g.goban.view s p) (hq : FullEyeOf n g.goban.view s q) {k : Nat}
    {g' : Game} (hr : Rounds dbg g k g') {x : Coord} (hx : Linked n g.goban.view s x) :
    g'.goban.getColor x = .ok (some c) := by
  have key : (∃ m', Legal dbg n m' g') ∧ TwoFull n g'.goban.view c s p q ∧ Linked n g'.goban.view s x := by
    induction hr with
    | start => exact ⟨⟨m, h⟩, ⟨h2, hp, hq⟩, hx⟩
    | @round k g1 g2 ps v _ ho e hv e2 ih =>
      obtain ⟨⟨m1, hl⟩, h1, h3⟩ := ih
      unfold Game.playoutRound at e2
      obtain ⟨mv, e3, e2⟩ := bind_eq_ok e2
      obtain ⟨m2, _, hr1⟩ := hl.reach
      have hpt : ∀ p ∈ v, OnBoard n p := fun p hp => ((pseudoLegals_mem hr1 e).1 p (hv.mem_iff.1 hp)).1
      have hmv := fastPlayRandom_eye v e3
      have hacc := accepted_safe hl ho (mv := mv) (by
        rcases hmv with rfl | ⟨⟨x, y⟩, h4, h5, h6, _⟩
        · exact Or.inl rfl
        · exact Or.inr ⟨x, y, h5, hpt _ h4, checkPointBy_empty h6, h6⟩)
      obtain ⟨e4, hl2, _⟩ := hacc.of_ok e2
      have hon : mv.OnBoard n := by
        rcases hmv with rfl | ⟨⟨x, y⟩, h4, h5, _⟩
        · trivial
        · rw [h5]; exact hpt _ h4
      obtain ⟨h7, h8⟩ := twoFull_move hl h1 hon (fun x y hxy => by
        rcases hmv with rfl | ⟨⟨x', y'⟩, _, h5, _, h6⟩
        · cases hxy
        · rw [hxy] at h5; cases h5; exact h6) e4
      exact ⟨⟨_, hl2⟩, h7, h8 x h3⟩
  obtain ⟨⟨m', h'⟩, ⟨⟨hs, hv, _⟩, _⟩, hx'⟩ := key
  obtain ⟨_, _, _, _, _, hsim⟩ := h'.sim
  rw [hsim.inv.getColor_view (linked_onBoard hx' hs), linked_same hx', hv]

/-! ### Examples -/

/-- Black has two eyes in the corners of a 3 × 3 board, White two stones beside. -/
def exAlive : List GOp :=
  [.try_ (.play 0 1), .try_ (.play 2 0), .try_ (.play 1 0), .try_ (.play 2 1), .try_ (.play 1 1), .try_ .pass, .try_ (.play 1 2)]

/-- What the boards of the examples show. -/
def shows (g : Game) (n : Dim) (l : List (Option Color)) : Bool := decide ((Spec.points n).map g.goban.view = l)

/-- The hypotheses of `C68_two_eyes`, `C68_refused`, `C68_simulation`, `C68_not_dead` and `C68_playout`, under a rule that forbids
suicide and under one that does not. -/
theorem exAlive_eyes (dbg : Bool) : ∀ rule, (rule = CHINESE ∨ rule = FREE) → ∃ g, Legal dbg 3 7 g ∧ g.turn = Color.black.opp ∧
    g.passes = 0 ∧ TwoEyes 3 g.goban.view .black (1, 1) (0, 0) (0, 2) ∧
    FullEyeOf 3 g.goban.view (1, 1) (0, 0) ∧ FullEyeOf 3 g.goban.view (1, 1) (0, 2) ∧
    g.goban.chainStonesIdx dbg 0 = .ok [⟨(0, 1), .black⟩, ⟨(1, 1), .black⟩, ⟨(1, 0), .black⟩, ⟨(1, 2), .black⟩] := by
  intro rule hr
  have : okAnd (mkGame dbg 3 rule exAlive) (fun g => decide (g.turn = .white) && decide (g.passes = 0) &&
      shows g 3 [none, some .black, none, some .black, some .black, some .black, some .white, some .white, none] &&
      decide (g.goban.chainStonesIdx dbg 0 = .ok [⟨(0, 1), .black⟩, ⟨(1, 1), .black⟩, ⟨(1, 0), .black⟩, ⟨(1, 2), .black⟩])) = true := by
    rcases hr with rfl | rfl <;> cases dbg <;> decide +kernel
  obtain ⟨g, hl, hg⟩ := mkGame_exists (by decide) this
  simp only [Bool.and_eq_true, decide_eq_true_eq, shows] at hg
  obtain ⟨⟨⟨h1, h2⟩, h3⟩, h4⟩ := hg
  have h3' : (Spec.points 3).map g.goban.view = _ := h3
  rw [show Spec.points 3 = [(0, 0), (0, 1), (0, 2), (1, 0), (1, 1), (1, 2), (2, 0), (2, 1), (2, 2)] by decide] at h3'
  simp only [List.map_cons, List.map_nil, List.cons.injEq, and_true] at h3'
  obtain ⟨v0, v1, v2, v3, v4, v5, _⟩ := h3'
  have l1 : Linked 3 g.goban.view (1, 1) (0, 1) := .step (.refl _) (by decide) (by decide) (by rw [v1, v4])
  have l3 : Linked 3 g.goban.view (1, 1) (1, 0) := .step (.refl _) (by decide) (by decide) (by rw [v3, v4])
  have l5 : Linked 3 g.goban.view (1, 1) (1, 2) := .step (.refl _) (by decide) (by decide) (by rw [v5, v4])
  have e0 : EyeOf 3 g.goban.view (1, 1) (0, 0) := by
    refine ⟨by decide, v0, ?_⟩
    rintro ⟨a, b⟩ ha ⟨ho1, ho2⟩
    have : (a = 0 ∧ b = 1) ∨ (a = 1 ∧ b = 0) := by unfold Adj at ha; dsimp only at ha; omega
    rcases this with ⟨rfl, rfl⟩ | ⟨rfl, rfl⟩
    · exact l1
    · exact l3
  have e2 : EyeOf 3 g.goban.view (1, 1) (0, 2) := by
    refine ⟨by decide, v2, ?_⟩
    rintro ⟨a, b⟩ ha ⟨ho1, ho2⟩
    have ho2 : b < 3 := ho2
    have : (a = 0 ∧ b = 1) ∨ (a = 1 ∧ b = 2) := by unfold Adj at ha; dsimp only at ha; omega
    rcases this with ⟨rfl, rfl⟩ | ⟨rfl, rfl⟩
    · exact l1
    · exact l5
  refine ⟨g, hl, h1, h2, ⟨by decide, v4, by decide, e0, e2⟩, ⟨e0, ?_⟩, ⟨e2, ?_⟩, h4⟩
  · rintro ⟨a, b⟩ _ ha hb
    dsimp only at ha hb
    obtain rfl : a = 1 := by omega
    obtain rfl : b = 1 := by omega
    exact .refl _
  · rintro ⟨a, b⟩ ⟨_, ho⟩ ha hb
    dsimp only at ha hb
    have ho : b < 3 := ho
    obtain rfl : a = 1 := by omega
    obtain rfl : b = 1 := by omega
    exact .refl _

/-- The criterion of `C68_life` is wider than two eyes. On a 4 × 4 board two black groups share the regions (0, 0) and (1, 1); neither
region is an eye of one group. -/
def exShared : List GOp :=
  [.try_ (.play 0 1), .try_ (.play 2 2), .try_ (.play 0 2), .try_ (.play 0 3), .try_ (.play 1 2), .try_ (.play 1 3),
   .try_ (.play 1 0), .try_ (.play 3 0), .try_ (.play 2 0), .try_ (.play 3 1), .try_ (.play 2 1)]

theorem exShared_lives (dbg : Bool) : ∃ g, Legal dbg 4 11 g ∧ Lives 4 g.goban.view .black (!g.rule.flagIllegal.suicide)
    (· ∈ [(0, 1), (0, 2), (1, 2), (1, 0), (2, 0), (2, 1)]) (fun R => R = (· = (0, 0)) ∨ R = (· = (1, 1))) := by
  have : okAnd (mkGame dbg 4 CHINESE exShared) (fun g => shows g 4 [none, some .black, some .black, some .white,
      some .black, none, some .black, some .white, some .black, some .black, some .white, none, some .white, some .white, none, none]) =
      true := by
    cases dbg <;> decide +kernel
  obtain ⟨g, hl, hg⟩ := mkGame_exists (by decide) this
  simp only [decide_eq_true_eq, shows] at hg
  rw [show Spec.points 4 = [(0, 0), (0, 1), (0, 2), (0, 3), (1, 0), (1, 1), (1, 2), (1, 3), (2, 0), (2, 1), (2, 2), (2, 3),
    (3, 0), (3, 1), (3, 2), (3, 3)] by decide] at hg
  simp only [List.map_cons, List.map_nil, List.cons.injEq, and_true] at hg
  obtain ⟨v0, v1, v2, _, v4, v5, v6, _, v8, v9, _⟩ := hg
  have st : ∀ {a b d}, Linked 4 g.goban.view a b → Adj b d → OnBoard 4 d → g.goban.view b = some .black →
      g.goban.view d = some .black → Linked 4 g.goban.view a d := fun h1 h2 h3 h4 h5 => .step h1 h2 h3 (by rw [h4, h5])
  refine ⟨g, hl, ?_, ?_, ?_, ?_⟩
  · intro x hx
    simp only [List.mem_cons, List.not_mem_nil, or_false] at hx
    rcases hx with rfl | rfl | rfl | rfl | rfl | rfl <;> exact ⟨by decide, by assumption⟩
  · rintro R (rfl | rfl) q rfl
    · exact ⟨by decide, by rw [v0]; simp⟩
    · exact ⟨by decide, by rw [v5]; simp⟩
  · rintro R (rfl | rfl) q rfl ⟨a, b⟩ ha _
    · have : (a = 0 ∧ b = 1) ∨ (a = 1 ∧ b = 0) := by unfold Adj at ha; dsimp only at ha; omega
      rcases this with ⟨rfl, rfl⟩ | ⟨rfl, rfl⟩ <;> exact Or.inr (by decide)
    · have : (a = 0 ∧ b = 1) ∨ (a = 1 ∧ b = 0) ∨ (a = 1 ∧ b = 2) ∨ (a = 2 ∧ b = 1) := by unfold Adj at ha; dsimp only at ha; omega
      rcases this with ⟨rfl, rfl⟩ | ⟨rfl, rfl⟩ | ⟨rfl, rfl⟩ | ⟨rfl, rfl⟩ <;> exact Or.inr (by decide)
  · intro x hx
    have near : Linked 4 g.goban.view x (0, 1) ∨ Linked 4 g.goban.view x (1, 0) := by
      simp only [List.mem_cons, List.not_mem_nil, or_false] at hx
      rcases hx with rfl | rfl | rfl | rfl | rfl | rfl
      · exact Or.inl (.refl _)
      · exact Or.inl (st (.refl _) (by decide) (by decide) v2 v1)
      · exact Or.inl (st (st (.refl _) (by decide) (by decide) v6 v2) (by decide) (by decide) v2 v1)
      · exact Or.inr (.refl _)
      · exact Or.inr (st (.refl _) (by decide) (by decide) v8 v4)
      · exact Or.inr (st (st (.refl _) (by decide) (by decide) v9 v8) (by decide) (by decide) v8 v4)
    refine ⟨_, _, Or.inl rfl, Or.inr rfl, ⟨_, rfl⟩, ⟨_, rfl⟩, by rintro _ rfl; decide, ?_, ?_⟩
    · rintro _ rfl _
      rcases near with h | h
      · exact ⟨_, by decide, h⟩
      · exact ⟨_, by decide, h⟩
    · rintro _ rfl _
      rcases near with h | h
      · exact ⟨_, by decide, h⟩
      · exact ⟨_, by decide, h⟩

/-- One eye is not enough: Black never plays in the eye (0, 0) and loses the three stones around it. -/
example : okAnd (mkGame true 3 CHINESE [.try_ (.play 0 1), .try_ (.play 0 2), .try_ (.play 1 0), .try_ (.play 2 0), .try_ (.play 1 1),
    .try_ (.play 1 2), .try_ .pass, .try_ (.play 2 1), .try_ .pass, .try_ (.play 0 0)])
    (fun g => shows g 3 [some .white, none, some .white, none, none, some .white, some .white, some .white, none]) = true := by
  decide +kernel

end Model
