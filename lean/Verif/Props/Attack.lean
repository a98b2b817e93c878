import Verif.Proofs.Attack
import Verif.Props.Life
import Verif.Props.SuperKo
/-!
# Benson's criterion is exact: C123
-/

namespace Model
open Spec (OnBoard Adj Linked HasLiberty NoDead SameOn Pos State Lives Living)

variable {dbg : Bool} {n : Dim} {m : Nat} {o : Option EndGame} {g : Game} {s : State} {c : Color}

/-- From `g`, `k` times: the player to move passes and the opponent puts a stone; all calls are accepted. -/
inductive Siege (dbg : Bool) (n : Dim) (g : Game) : Nat → Game → Prop
  | start : Siege dbg n g 0 g
  | round {k g1 g2 g3 x y} : Siege dbg n g k g1 → g1.tryPlay dbg .pass = .ok (none, g2) → OnBoard n (x, y) →
      g2.tryPlay dbg (.play x y) = .ok (none, g3) → Siege dbg n g (k + 1) g3

theorem Siege.front {k : Nat} {g0 g1 g2 g' : Game} {x y : Nat} (e1 : g0.tryPlay dbg .pass = .ok (none, g1)) (hp : OnBoard n (x, y))
    (e2 : g1.tryPlay dbg (.play x y) = .ok (none, g2)) (h : Siege dbg n g2 k g') : Siege dbg n g0 (k + 1) g' := by
  induction h with
  | start => exact .round .start e1 hp e2
  | round _ e3 hp' e4 ih => exact .round ih e3 hp' e4

/-- Super-ko has nothing to say: no position a stone was played from has all stones that `c` has now and one more. -/
def Ahead (n : Dim) (c : Color) (now : Pos) (b : Pos) : Prop :=
  (∀ q, OnBoard n q → now q = some c → b q = some c) → ∀ q, OnBoard n q → b q = some c → now q = some c

/-- A call the abstract game answers with `ok` is accepted. -/
theorem Sim.accept (h : Sim dbg n m o g s) (hm : m < 65535) (hps : s.passes ≤ 2) {op : GOp} (hop : op.OnBoard n)
    (ha : Spec.answerSeen n g.rule.flagIllegal.forbidden s op.call = .ok) :
    ∃ g', g.call dbg op = .ok (none, g') ∧ (∃ m' ≤ m + 1, Sim dbg n m' o g' (Spec.apply n g.rule.flagIllegal.forbidden s op.call)) ∧
      g'.rule.flagIllegal = g.rule.flagIllegal := by
  rcases h.call_seen op hop hps with ⟨⟨e, g'⟩, e1, h1, h2, h3, _⟩ | h'
  · unfold Spec.stepSeen at h1 h2
    rw [if_pos ha] at h1 h2
    have : e = none := by
      cases e with
      | none => rfl
      | some x => cases x <;> cases h1
    subst this
    exact ⟨g', e1, h2, h3⟩
  · exact absurd h'.2 (h.notFull hm)

/-- Points without a stone of `c`. -/
def openPoints (n : Dim) (pos : Pos) (c : Color) : Nat := ((Spec.points n).filter (fun q => pos q ≠ some c)).length

theorem openPoints_lt {a b : Pos} {p : Coord} (hp : OnBoard n p) (ha : a p ≠ some c) (hb : b p = some c)
    (hsub : ∀ q, OnBoard n q → a q = some c → b q = some c) : openPoints n b c < openPoints n a c := by
  unfold openPoints
  have h1 : (Spec.points n).filter (fun q => b q ≠ some c) =
      ((Spec.points n).filter (fun q => a q ≠ some c)).filter (fun q => b q ≠ some c) := by
    rw [List.filter_filter]
    refine List.filter_congr fun q hq => ?_
    have := hsub q (mem_points.1 hq)
    by_cases h : b q = some c <;> by_cases h' : a q = some c <;> simp_all
  rw [h1, List.length_filter_lt_length_iff_exists]
  exact ⟨p, by simp [mem_points.2 hp, ha], by simp [hb]⟩

/-- What is kept during the attack of `c`. -/
structure Besieged (dbg : Bool) (n : Dim) (m : Nat) (o : Option EndGame) (c : Color) (g : Game) (s : State) : Prop where
  sim : Sim dbg n m o g s
  turn : s.turn = c.opp
  passes : s.passes = 0
  suicide : g.rule.flagIllegal.suicide = true
  fillEye : g.rule.flagIllegal.fillEye = false
  superko : g.rule.flagIllegal.superko = false ∨ ∀ b ∈ s.played, Ahead n c s.pos b

/-- One round. -/
theorem Besieged.round (h : Besieged dbg n m o c g s) (hm : m + 2 < 65535) {t : Coord} (ht1 : OnBoard n t)
    (ht2 : s.pos t = some c.opp) (hw : AtMostOne n s.pos false c.opp t) :
    ∃ p g1 g2 s2 m2, LibAt n s.pos t p ∧ g.tryPlay dbg .pass = .ok (none, g1) ∧ g1.tryPlay dbg (.play p.1 p.2) = .ok (none, g2) ∧
      m2 ≤ m + 2 ∧ Besieged dbg n m2 o c g2 s2 ∧ s2.pos = after n s.pos p c := by
  obtain ⟨h, ht, hps, hsu, hfe, hsk⟩ := h
  obtain ⟨p, hlib, hliv⟩ := attack_move h.noDead ht1 ht2 hw
  -- the pass
  obtain ⟨g1, e1, ⟨m1, hm1, h1⟩, hf1⟩ := h.accept (op := .try_ .pass) (by omega) (by omega) trivial
    (by unfold Spec.answerSeen; dsimp only [GOp.call, Move.call]; rw [hps]; rfl)
  dsimp only [GOp.call, Move.call, Spec.apply] at h1
  -- the stone
  have hans : Spec.answerSeen n g1.rule.flagIllegal.forbidden { s with turn := s.turn.opp, passes := s.passes + 1, before := none }
      (.play p) = .ok := by
    rw [hf1]
    unfold Spec.answerSeen
    dsimp only
    rw [hps, ht, Color.opp_opp]
    rw [if_neg (by omega), if_neg (by simp [hlib.2.1]), if_neg, if_neg, if_neg, if_neg]
    · rintro ⟨hsk', _, hcap, b, hb, hsame⟩
      rcases hsk with h2 | h2
      · rw [show g.rule.flagIllegal.forbidden.superko = g.rule.flagIllegal.superko from rfl, h2] at hsk'; cases hsk'
      · have hsame' : SameOn n (after n s.pos p c) b := by
          have h3 : g.rule.flagIllegal.forbidden.suicide = true := hsu
          rw [h3] at hsame
          unfold Spec.play at hsame
          simpa [ht, Color.opp_opp, after] using hsame
        have := h2 b hb (fun q hq hqv => by
          rw [← hsame' q hq]
          refine after_own.2 ?_
          rw [place_ne (by rintro rfl; rw [hlib.2.1] at hqv; cases hqv), hqv]) p hlib.1
          (by rw [← hsame' p hlib.1, after_self])
        rw [hlib.2.1] at this; cases this
    · rintro ⟨h2, _⟩
      rw [show g.rule.flagIllegal.forbidden.fillEye = g.rule.flagIllegal.fillEye from rfl, hfe] at h2; cases h2
    · rintro ⟨_, ⟨b, h2, _⟩, _⟩; cases h2
    · rintro ⟨_, h2⟩; exact h2 hliv
  obtain ⟨px, py⟩ := p
  obtain ⟨g2, e2, ⟨m2, hm2, h2⟩, hf2⟩ := h1.accept (op := .try_ (.play px py)) (by omega)
    (by dsimp only; omega) hlib.1 hans
  dsimp only [GOp.call, Move.call, Spec.apply] at h2
  have hsu' : g1.rule.flagIllegal.forbidden.suicide = true := by rw [hf1]; exact hsu
  rw [hsu'] at h2
  have hpos : Spec.play n (!true) s.pos (px, py) s.turn.opp = after n s.pos (px, py) c := by
    rw [ht, Color.opp_opp]; rfl
  rw [hpos] at h2
  refine ⟨(px, py), g1, g2, _, m2, hlib, e1, e2, by omega, ⟨h2, by dsimp only; rw [Color.opp_opp, ht], rfl,
    by rw [hf2, hf1]; exact hsu, by rw [hf2, hf1]; exact hfe, ?_⟩, rfl⟩
  rw [hf2, hf1]
  rcases hsk with h3 | h3
  · exact Or.inl h3
  right
  intro b hb hall
  dsimp only at hb hall ⊢
  have hpv := hall _ hlib.1 after_self
  have hsub : ∀ q, OnBoard n q → s.pos q = some c → after n s.pos (px, py) c q = some c := fun q hq hqv => by
    refine after_own.2 ?_
    rw [place_ne (by rintro rfl; rw [hlib.2.1] at hqv; cases hqv), hqv]
  rcases List.mem_append.1 hb with hb | hb
  · exact absurd (h3 b hb (fun q hq hqv => hall q hq (hsub q hq hqv)) _ hlib.1 hpv) (by rw [hlib.2.1]; simp)
  · rw [List.mem_singleton] at hb
    rw [hb, hlib.2.1] at hpv; cases hpv

theorem openPoints_pos {pos : Pos} {x : Coord} (hx : OnBoard n x) (hv : pos x = some c.opp) : 0 < openPoints n pos c := by
  have : x ∈ (Spec.points n).filter (fun q => pos q ≠ some c) := by
    simp only [List.mem_filter, mem_points.2 hx, true_and, hv, decide_eq_true_eq]
    exact fun h => some_ne_opp h.symm
  exact List.length_pos_of_mem this

theorem openPoints_after {pos : Pos} {p : Coord} (hp : OnBoard n p) (he : pos p = none) :
    openPoints n (after n pos p c) c < openPoints n pos c :=
  openPoints_lt (c := c) hp (by rw [he]; simp) after_self fun q hq hqv => by
    refine after_own.2 ?_
    rw [place_ne (by rintro rfl; rw [he] at hqv; cases hqv), hqv]

/-- The attack on one stone, by induction on the points where the attacker has no stone. -/
theorem Besieged.take (x : Coord) (hx : OnBoard n x) : ∀ (k : Nat) {m : Nat} {g : Game} {s : State}, Besieged dbg n m o c g s →
    openPoints n s.pos c ≤ k → m + 2 * k < 65535 →
    s.pos x = some c.opp → (∀ X Rs, Lives n s.pos c.opp false X Rs → ¬ X x) →
    ∃ j g', j ≤ k ∧ Siege dbg n g j g' ∧ g'.goban.getColor x = .ok none := by
  intro k
  induction k with
  | zero =>
    intro m g s h hk _ hv _
    have := openPoints_pos (n := n) hx hv
    omega
  | succ k ih =>
    intro m g s h hk hm hv hno
    obtain ⟨t, ht1, ht2, hw⟩ := exists_atMostOne hx hv hno
    obtain ⟨p, g1, g2, s2, m2, hlib, e1, e2, hm2, h2, hpos⟩ := h.round (by omega) ht1 ht2 hw
    by_cases hgone : after n s.pos p c x = none
    · refine ⟨1, g2, by omega, .round .start e1 hlib.1 e2, ?_⟩
      rw [h2.sim.inv.getColor_view hx, h2.sim.pos x hx, hpos, hgone]
    have hv' : after n s.pos p c x = some c.opp := by
      rcases after_eq (n := n) (pos := s.pos) (c := c) (p := p) (q := x)
        (by rintro rfl; rw [hlib.2.1] at hv; cases hv) with h3 | h3
      · rw [h3, hv]
      · exact absurd h3.2 hgone
    have hlt := openPoints_after (n := n) (c := c) hlib.1 hlib.2.1
    obtain ⟨j, g', hj, hr, hc⟩ := ih h2 (by rw [hpos]; omega) (by omega) (by rw [hpos]; exact hv')
      (by rw [hpos]; exact fun X Rs hL hX => hno X _ (lives_before ht1 hw hlib ht2 hL) hX)
    exact ⟨j + 1, g', by omega, hr.front e1 hlib.1 e2, hc⟩

/-- The attack on all stones at once. -/
theorem Besieged.all : ∀ (k : Nat) {m : Nat} {g : Game} {s : State}, Besieged dbg n m o c g s →
    openPoints n s.pos c ≤ k → m + 2 * k < 65535 →
    ∃ j g', j ≤ k ∧ Siege dbg n g j g' ∧ ∀ q, OnBoard n q → g'.goban.getColor q = .ok (some c.opp) → Living n s.pos c.opp q := by
  intro k
  induction k with
  | zero =>
    intro m g s h hk _
    refine ⟨0, g, Nat.le_refl _, .start, fun q hq hv => ?_⟩
    rw [h.sim.inv.getColor_view hq, h.sim.pos q hq] at hv
    have := openPoints_pos (n := n) hq (Except.ok.inj hv)
    omega
  | succ k ih =>
    intro m g s h hk hm
    by_cases hdone : ∀ q, OnBoard n q → s.pos q = some c.opp → Living n s.pos c.opp q
    · refine ⟨0, g, Nat.zero_le _, .start, fun q hq hv => ?_⟩
      rw [h.sim.inv.getColor_view hq, h.sim.pos q hq] at hv
      exact hdone q hq (Except.ok.inj hv)
    simp only [not_forall] at hdone
    obtain ⟨x, hx, hv, hno⟩ := hdone
    obtain ⟨t, ht1, ht2, hw⟩ := exists_atMostOne hx hv (fun X Rs hL hX => hno ⟨X, Rs, hL, hX⟩)
    obtain ⟨p, g1, g2, s2, m2, hlib, e1, e2, hm2, h2, hpos⟩ := h.round (by omega) ht1 ht2 hw
    have hlt := openPoints_after (n := n) (c := c) hlib.1 hlib.2.1
    obtain ⟨j, g', hj, hr, hc⟩ := ih h2 (by rw [hpos]; omega) (by omega)
    refine ⟨j + 1, g', by omega, hr.front e1 hlib.1 e2, fun q hq hqv => ?_⟩
    obtain ⟨X, Rs, hL, hX⟩ := hc q hq hqv
    rw [hpos] at hL
    exact ⟨X, _, lives_before ht1 hw hlib ht2 hL, hX⟩

theorem ahead_played (h : Sim dbg n m o g s) (hh : ∀ b ∈ g.history, Ahead n c g.goban.view b.view) : ∀ b ∈ s.played, Ahead n c s.pos b := by
  intro b hb
  obtain ⟨q, hq, hqb⟩ := mem_firsts.2 ⟨b, hb, SameOn.refl b⟩
  have key : ∀ {bs : List Goban} {ps : List Pos}, Matches n bs ps → q ∈ ps → ∃ a ∈ bs, SameOn n a.view q := by
    intro bs
    induction bs with
    | nil => intro ps hm hq; cases ps <;> [cases hq; cases hm]
    | cons a bs ih =>
      intro ps hm hq
      cases ps with
      | nil => cases hm
      | cons p ps =>
        rcases List.mem_cons.1 hq with rfl | hq
        · exact ⟨a, List.mem_cons_self, hm.2.1⟩
        · obtain ⟨a', h1, h2⟩ := ih hm.2.2 hq
          exact ⟨a', List.mem_cons_of_mem _ h1, h2⟩
  obtain ⟨a, ha, hab⟩ := key h.hist hq
  intro hall r hr hrv
  have hsame : ∀ r, OnBoard n r → a.view r = b r := fun r hr => (hab r hr).trans (hqb r hr)
  rw [← h.pos r hr]
  refine hh a ha (fun r hr hrv => ?_) r hr (by rw [hsame r hr, hrv])
  rw [hsame r hr]; exact hall r hr (by rw [← h.pos r hr, hrv])

theorem Legal.besieged (h : Legal dbg n m g) (hps : g.passes = 0) (hsu : g.rule.flagIllegal.suicide = true)
    (hfe : g.rule.flagIllegal.fillEye = false)
    (hsk : g.rule.flagIllegal.superko = false ∨ ∀ b ∈ g.history, Ahead n g.turn.opp g.goban.view b.view) :
    ∃ o s m', m' ≤ m ∧ Besieged dbg n m' o g.turn.opp g s := by
  obtain ⟨o, s, m', hm', _, hs⟩ := h.sim
  refine ⟨o, s, m', hm', hs, by rw [Color.opp_opp, hs.turn], by rw [← hs.passes, hps], hsu, hfe, ?_⟩
  rcases hsk with h1 | h1
  · exact Or.inl h1
  · exact Or.inr (ahead_played hs h1)

theorem openPoints_le (pos : Pos) : openPoints n pos c ≤ n.area := by
  unfold openPoints
  rw [← points_length n]
  exact List.length_filter_le _ _

/-- **C123**, the attack: a stone of the player to move that is not among stones living by Benson's criterion is taken if this player
goes on passing: there is such a sequence of accepted calls. -/
theorem C123_taken (h : Legal dbg n m g) (hps : g.passes = 0) (hsu : g.rule.flagIllegal.suicide = true)
    (hfe : g.rule.flagIllegal.fillEye = false)
    (hsk : g.rule.flagIllegal.superko = false ∨ ∀ b ∈ g.history, Ahead n g.turn.opp g.goban.view b.view)
    (hm : m + 2 * n.area < 65535) {x : Coord} (hx : OnBoard n x) (hv : g.goban.getColor x = .ok (some g.turn))
    (hno : ¬ Living n g.goban.view g.turn x) :
    ∃ k g', k ≤ n.area ∧ Siege dbg n g k g' ∧ g'.goban.getColor x = .ok none := by
  obtain ⟨o, s, m', hm', hb⟩ := h.besieged hps hsu hfe hsk
  have hs := hb.sim
  have hturn : g.turn.opp.opp = g.turn := Color.opp_opp _
  have hview : g.goban.view x = some g.turn := by
    have := hs.inv.getColor_view hx; rw [hv] at this; exact (Except.ok.inj this).symm
  refine hb.take x hx n.area (openPoints_le _) (by omega) (by rw [hturn, ← hs.pos x hx, hview]) ?_
  rw [hturn]
  exact fun X Rs hL hX => hno ⟨X, Rs, hL.congr (SameOn.symm hs.pos), hX⟩

/-- Stones of `c` that were taken so far. -/
def Game.lost (g : Game) : Color → Nat
  | .white => g.prisoners.1
  | .black => g.prisoners.2

theorem play_kept {sa : Bool} {pos : Pos} {p : Coord} {c d : Color} (he : pos p = none)
    (hv : Spec.vanished n (Spec.place pos p d) (Spec.play n sa pos p d) c = 0) {q : Coord} (hq : OnBoard n q) (hqv : pos q = some c) :
    Spec.play n sa pos p d q = some c := by
  have hput : Spec.place pos p d q = some c := by rw [place_ne (by rintro rfl; rw [he] at hqv; cases hqv), hqv]
  have hsub : Spec.play n sa pos p d q = none ∨ Spec.play n sa pos p d q = Spec.place pos p d q := by
    unfold Spec.play
    split
    · rcases removeDead_sub (n := n) (pos := Spec.removeDead n (Spec.place pos p d) d.opp) (c := d) q with h | h
      · exact Or.inl h
      · rw [h]; exact removeDead_sub q
    · exact removeDead_sub q
  rcases hsub with h | h
  · have : q ∈ (Spec.points n).filter (fun q => Spec.place pos p d q = some c ∧ Spec.play n sa pos p d q = none) := by
      simp only [List.mem_filter, mem_points.2 hq, true_and, hput, h, decide_true]
    have h2 := List.length_pos_of_mem this
    unfold Spec.vanished at hv
    omega
  · rw [h, hput]

/-- While no stone of `c` is taken, the stones of `c` in earlier positions are still there. -/
theorem Legal.sim_kept (h : Legal dbg n m g) : ∃ o s m', m' ≤ m ∧ s.passes ≤ 2 ∧ Sim dbg n m' o g s ∧
    ∀ c, g.lost c = 0 → ∀ b ∈ s.played, ∀ q, OnBoard n q → b q = some c → s.pos q = some c := by
  induction h with
  | fresh hf hd => exact ⟨_, _, _, Nat.le_refl _, Nat.zero_le _, hf.sim hd, fun _ _ b hb => nomatch hb⟩
  | @tryPlay m g mv e g' h hmv e1 ih =>
    obtain ⟨o, s, m', hm', hps, hs, hk⟩ := ih
    obtain ⟨_, ⟨m2, hm2, hs2⟩, _, hp2⟩ := (hs.call_seen (.try_ mv) hmv hps).of_ok e1
    dsimp only at hs2
    refine ⟨o, _, m2, by omega, hp2, hs2, fun c hc => ?_⟩
    have hpr : ∀ {c : Color}, (match c with | .white => g.prisoners.1 | .black => g.prisoners.2) = 0 →
        ∀ b ∈ s.played, ∀ q, OnBoard n q → b q = some c → s.pos q = some c := fun {c} => hk c
    have hg' := hs2.prisoners
    unfold Game.lost at hc
    rw [hg'] at hc
    rw [hs.prisoners] at hpr
    unfold Spec.stepSeen at hc ⊢
    by_cases ha : Spec.answerSeen n g.rule.flagIllegal.forbidden s (GOp.try_ mv).call = .ok
    swap
    · rw [if_neg ha] at hc ⊢; exact hpr hc
    rw [if_pos ha] at hc ⊢
    cases mv with
    | pass => exact hpr hc
    | resign d => exact hpr hc
    | play x y =>
      have he : s.pos (x, y) = none := by
        refine Classical.byContradiction fun hne => ?_
        change Spec.answerSeen n g.rule.flagIllegal.forbidden s (.play (x, y)) = .ok at ha
        unfold Spec.answerSeen at ha
        dsimp only at ha
        split at ha
        · cases ha
        · cases ha
      have hz : (match c with | .white => s.prisoners.1 | .black => s.prisoners.2) = 0 ∧
          Spec.vanished n (Spec.place s.pos (x, y) s.turn) (Spec.play n (!g.rule.flagIllegal.forbidden.suicide) s.pos (x, y) s.turn) c = 0 := by
        cases c
        · have hc : s.prisoners.2 + _ = 0 := hc
          exact ⟨by dsimp only; omega, by omega⟩
        · have hc : s.prisoners.1 + _ = 0 := hc
          exact ⟨by dsimp only; omega, by omega⟩
      intro b hb q hq hbq
      have hpq : s.pos q = some c := by
        have hb : b ∈ s.played ++ [s.pos] := hb
        rcases List.mem_append.1 hb with hb | hb
        · exact hpr hz.1 b hb q hq hbq
        · rw [List.mem_singleton] at hb; rw [← hb]; exact hbq
      exact play_kept he hz.2 hq hpq
  | resume h ih =>
    obtain ⟨o, s, m', hm', hps, hs, hk⟩ := ih
    exact ⟨o, _, m', hm', Nat.zero_le _, hs.resume, hk⟩
  | setKomi h ih =>
    obtain ⟨o, s, m', hm', hps, hs, hk⟩ := ih
    exact ⟨o, s, m', hm', hps, hs.setKomi _, hk⟩

/-- A player none of whose stones were taken is ahead of all earlier positions. -/
theorem ahead_of_lost (h : Legal dbg n m g) (hl : g.lost c = 0) : ∀ b ∈ g.history, Ahead n c g.goban.view b.view := by
  obtain ⟨o, s, m', _, _, hs, hk⟩ := h.sim_kept
  intro a ha _ q hq hv
  have key : ∀ {bs : List Goban} {ps : List Pos}, Matches n bs ps → a ∈ bs → ∃ q ∈ ps, SameOn n a.view q := by
    intro bs
    induction bs with
    | nil => intro ps _ ha; cases ha
    | cons a' bs ih =>
      intro ps hm ha
      cases ps with
      | nil => cases hm
      | cons p ps =>
        rcases List.mem_cons.1 ha with rfl | ha
        · exact ⟨p, List.mem_cons_self, hm.2.1⟩
        · obtain ⟨q', h1, h2⟩ := ih hm.2.2 ha
          exact ⟨q', List.mem_cons_of_mem _ h1, h2⟩
  obtain ⟨b, hb, hab⟩ := key hs.hist ha
  obtain ⟨b', hb', hbb⟩ := mem_firsts.1 ⟨b, hb, SameOn.refl b⟩
  rw [hs.pos q hq]
  exact hk c hl b' hb' q hq (by rw [hbb q hq, ← hab q hq, hv])

theorem Sparing.trans {P : Coord → Prop} {g0 g1 g2 : Game} (h1 : Sparing dbg n c P g0 g1) (h2 : Sparing dbg n c P g1 g2) :
    Sparing dbg n c P g0 g2 := by
  induction h2 with
  | start => exact h1
  | call _ hop hsp e ih => exact .call ih hop hsp e

theorem Sparing.mono {P Q : Coord → Prop} (hPQ : ∀ p, Q p → P p) {g0 g1 : Game} (h : Sparing dbg n c P g0 g1) : Sparing dbg n c Q g0 g1 := by
  induction h with
  | start => exact .start
  | call _ hop hsp e ih => exact .call ih hop (fun ht x y hxy hQ => hsp ht x y hxy (hPQ _ hQ)) e

/-- In a siege the player to move puts no stone. -/
theorem Siege.sparing {k : Nat} {g' : Game} (h : Siege dbg n g k g') : g'.turn = g.turn ∧ Sparing dbg n g.turn (fun _ => True) g g' := by
  induction h with
  | start => exact ⟨rfl, .start⟩
  | @round k g1 g2 g3 x y _ e1 hp e2 ih =>
    obtain ⟨ih1, ih2⟩ := ih
    have hp1 : g1.passes < 2 := by
      have e := C13_accepted_is_play e1
      apply Classical.byContradiction
      intro h'
      rw [(C16_pass (dbg := dbg) (g := g1)).2 (by omega)] at e; cases e
    obtain ⟨g2', e3, t2, _⟩ := (C16_pass (dbg := dbg)).1 hp1
    rw [C13_accepted_is_play e1] at e3
    cases e3
    have t3 := (C16_play (C13_accepted_is_play e2)).1
    refine ⟨by rw [t3, t2, Color.opp_opp, ih1], .call (.call ih2 (op := .try_ .pass) trivial ?_ e1) (op := .try_ (.play x y)) hp ?_ e2⟩
    · intro _ _ _ h; cases h
    · intro ht
      rw [t2, ih1] at ht
      exact absurd ht (Ne.symm (Color.ne_opp _))

/-- Living stones are there after calls in which their player puts no stone. -/
theorem _root_.Spec.Living.stays (h : Legal dbg n m g) (hsu : g.rule.flagIllegal.suicide = true) {x : Coord} (hx : Living n g.goban.view c x)
    {g' : Game} (hsp : Sparing dbg n c (fun _ => True) g g') : g'.goban.getColor x = .ok (some c) := by
  obtain ⟨X, Rs, hL, hX⟩ := hx
  exact C68_life h (by rw [hsu]; exact hL) (hsp.mono fun _ _ => trivial) hX

/-- **C123**, the end of the attack: if the player to move goes on passing, the opponent can play so that exactly the living stones of
this player remain. -/
theorem C123_remain (h : Legal dbg n m g) (hps : g.passes = 0) (hsu : g.rule.flagIllegal.suicide = true)
    (hfe : g.rule.flagIllegal.fillEye = false)
    (hsk : g.rule.flagIllegal.superko = false ∨ ∀ b ∈ g.history, Ahead n g.turn.opp g.goban.view b.view)
    (hm : m + 2 * n.area < 65535) :
    ∃ k g', k ≤ n.area ∧ Siege dbg n g k g' ∧
      ∀ q, OnBoard n q → (g'.goban.getColor q = .ok (some g.turn) ↔ Living n g.goban.view g.turn q) := by
  obtain ⟨o, s, m', hm', hb⟩ := h.besieged hps hsu hfe hsk
  obtain ⟨k, g', hk, hsg, hq⟩ := hb.all n.area (openPoints_le _) (by omega)
  refine ⟨k, g', hk, hsg, fun q hqb => ⟨fun hv => ?_, fun hL => hL.stays h hsu hsg.sparing.2⟩⟩
  rw [Color.opp_opp] at hq
  obtain ⟨X, Rs, hL, hX⟩ := hq q hqb hv
  exact ⟨X, Rs, hL.congr (SameOn.symm hb.sim.pos), hX⟩

/-- The move can be handed to `c`, with no pass pending. -/
theorem Legal.handOver (h : Legal dbg n m g) (c : Color) :
    ∃ m1 g1, m1 ≤ m + 1 ∧ Legal dbg n m1 g1 ∧ Sparing dbg n c (fun _ => True) g g1 ∧ g1.turn = c ∧ g1.passes = 0 ∧
      g1.goban = g.goban ∧ g1.rule = g.rule ∧ g1.prisoners = g.prisoners := by
  have s1 : Sparing dbg n c (fun _ => True) g g.resume := .call .start (op := .resume) trivial (fun _ _ _ h => by cases h) rfl
  by_cases ht : g.turn = c
  · exact ⟨m, _, by omega, .resume h, s1, ht, rfl, rfl, rfl, rfl⟩
  · have e2 : g.resume.tryPlay dbg .pass = .ok (none, { g with turn := g.turn.opp, koPoint := none, passes := 1 }) := rfl
    refine ⟨m + 1, ({ g with turn := g.turn.opp, koPoint := none, passes := 1 } : Game).resume, Nat.le_refl _,
      .resume (.tryPlay (mv := .pass) (.resume h) trivial e2),
      .call (.call s1 (op := .try_ .pass) trivial (fun _ _ _ h => by cases h) e2) (op := .resume) trivial (fun _ _ _ h => by cases h) rfl,
      ?_, rfl, rfl, rfl, rfl⟩
    change g.turn.opp = c
    rw [Color.eq_opp_of_ne ht, Color.opp_opp]

/-- **C123**: under rules that forbid suicide, a stone lives by Benson's criterion exactly if it is there after any calls in which its
player puts no stone. -/
theorem C123_exact (h : Legal dbg n m g) (hsu : g.rule.flagIllegal.suicide = true) (hfe : g.rule.flagIllegal.fillEye = false)
    (hsk : g.rule.flagIllegal.superko = false ∨ g.lost c.opp = 0) (hm : m + 2 * n.area + 1 < 65535) {x : Coord} (hx : OnBoard n x)
    (hv : g.goban.getColor x = .ok (some c)) :
    Living n g.goban.view c x ↔ ∀ g', Sparing dbg n c (fun _ => True) g g' → g'.goban.getColor x = .ok (some c) := by
  refine ⟨fun hL g' hsp => hL.stays h hsu hsp, fun hall => ?_⟩
  apply Classical.byContradiction
  intro hno
  obtain ⟨m1, g1, hm1, hl1, hsp1, ht1, hp1, hg1, hr1, hpr1⟩ := h.handOver c
  subst ht1
  obtain ⟨k, g', _, hsiege, hgone⟩ := C123_taken hl1 hp1 (by rw [hr1]; exact hsu) (by rw [hr1]; exact hfe)
    (by
      rw [hr1]
      rcases hsk with h' | h'
      · exact Or.inl h'
      · refine Or.inr (ahead_of_lost hl1 ?_)
        unfold Game.lost at h' ⊢
        rw [hpr1]; exact h')
    (by omega) hx (by rw [hg1]; exact hv) (by rw [hg1]; exact hno)
  have := hall g' (hsp1.trans hsiege.sparing.2)
  rw [hgone] at this; cases this

/-! ### Examples -/

/-- Play a siege: the stones of the opponent in order. -/
def siegeFrom (dbg : Bool) (n : Dim) (g : Game) : List Coord → M (Option Game)
  | [] => .ok (some g)
  | p :: l => do
    let r ← g.tryPlay dbg .pass
    if r.1 = none ∧ OnBoard n p then do
      let r ← r.2.tryPlay dbg (.play p.1 p.2)
      if r.1 = none then siegeFrom dbg n r.2 l else .ok none
    else .ok none

theorem siegeFrom_siege : ∀ (l : List Coord) {g g' : Game}, siegeFrom dbg n g l = .ok (some g') → Siege dbg n g l.length g'
  | [], g, g', h => by cases h; exact .start
  | p :: l, g, g', h => by
    unfold siegeFrom at h
    obtain ⟨⟨a, g1⟩, e1, h⟩ := bind_eq_ok h
    split at h
    · next h1 =>
      obtain ⟨⟨b, g2⟩, e2, h⟩ := bind_eq_ok h
      split at h
      · next h2 =>
        obtain ⟨h1, hp⟩ := h1
        dsimp only at h1 h2 h
        rw [h1] at e1
        rw [h2] at e2
        exact (siegeFrom_siege l h).front e1 hp e2
      · cases h
    · cases h

/-- Black has one eye in the corner of a 4 × 4 board, White three stones on the other side; Black is to move. -/
def exOneEye : List GOp :=
  [.try_ (.play 0 1), .try_ (.play 3 3), .try_ (.play 1 1), .try_ (.play 3 2), .try_ (.play 1 0), .try_ (.play 3 1)]

/-- The hypotheses of `C123_taken` and `C123_remain`, and both sides of `C123_exact` false: under both rule sets the group with one eye
does not live. -/
theorem C123_example (dbg : Bool) : ∀ rule, (rule = CHINESE ∨ rule = JAPANESE) → ∃ g, Legal dbg 4 6 g ∧ g.passes = 0 ∧ g.turn = .black ∧
    g.rule = rule ∧ g.lost .white = 0 ∧ (∀ b ∈ g.history, Ahead 4 .white g.goban.view b.view) ∧
    g.goban.getColor (0, 1) = .ok (some .black) ∧ ¬ Living 4 g.goban.view .black (0, 1) ∧
    ∃ g', Siege dbg 4 g 5 g' ∧ g'.goban.getColor (0, 1) = .ok none := by
  intro rule hr
  have : okAnd (mkGame dbg 4 rule exOneEye) (fun g => decide (g.passes = 0) && decide (g.turn = .black) && decide (g.rule = rule) &&
      decide (g.lost .white = 0) && decide (g.goban.getColor (0, 1) = .ok (some .black)) &&
      okAnd (siegeFrom dbg 4 g [(0, 2), (1, 2), (2, 1), (2, 0), (0, 0)]) (fun r => match r with
        | some g' => decide (g'.goban.getColor (0, 1) = .ok none)
        | none => false)) = true := by
    rcases hr with rfl | rfl <;> cases dbg <;> decide +kernel
  obtain ⟨g, hl, hg⟩ := mkGame_exists (by decide) this
  simp only [Bool.and_eq_true, decide_eq_true_eq] at hg
  obtain ⟨⟨⟨⟨⟨h1, h2⟩, h3⟩, h4⟩, h5⟩, h6⟩ := hg
  obtain ⟨r, e, h6⟩ := okAnd_iff.1 h6
  cases r with
  | none => cases h6
  | some g' =>
    have hs := siegeFrom_siege _ e
    simp only [decide_eq_true_eq] at h6
    refine ⟨g, hl, h1, h2, h3, h4, ahead_of_lost hl h4, h5, fun hL => ?_, g', hs, h6⟩
    have hsp := hs.sparing.2
    rw [h2] at hsp
    have := hL.stays hl (by rw [h3]; rcases hr with rfl | rfl <;> rfl) hsp
    rw [h6] at this; cases this

/-- Living stones: the group with two eyes of `exAlive`. -/
example (dbg : Bool) : ∃ g, Legal dbg 3 7 g ∧ Living 3 g.goban.view .black (1, 1) := by
  obtain ⟨g, h, _, _, h2, _⟩ := exAlive_eyes dbg CHINESE (Or.inl rfl)
  exact ⟨g, h, _, _, h2.lives, .refl _⟩

end Model
