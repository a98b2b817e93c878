import Verif.Props.FairKomi
import Verif.Props.Life
import Verif.Props.Counting
/-!
# Stones that live, and the score: C119
-/

namespace Model
open Spec (OnBoard Adj Linked Pos Lives Secure NoDead Territory)

variable {dbg : Bool} {n : Nat} {m : Nat} {g g' : Game} {c : Color} {X : Coord → Prop} {Rs : (Coord → Prop) → Prop}
  {ord : List Point → List Point}

/-- A held point counts for its player. -/
theorem held_counts {n : Dim} {pos : Pos} {sa : Bool} (hl : Lives n pos c sa X Rs) (nd : NoDead n pos) {p : Coord} (hp : Secure X Rs p) :
    OnBoard n p ∧ (pos p = some c ∨ Territory n pos c p) := by
  rcases hp with hx | ⟨hR, x, hax, hx⟩
  · exact ⟨(hl.stones p hx).1, Or.inl (hl.stones p hx).2⟩
  · obtain ⟨hon, hne⟩ := hl.inside _ hR p rfl
    have hnb : ∀ r, Adj p r → OnBoard n r → pos r = some c := by
      intro r ha ho
      rcases hl.border _ hR p rfl r ha ho with h | h
      · have : r = p := h
        subst this
        unfold Adj at ha
        omega
      · exact (hl.stones r h).2
    have hself : pos p ≠ some c → ∀ q, Linked n pos p q → q = p := by
      intro hne q hq
      induction hq with
      | refl => rfl
      | step _ ha ho he ih =>
        subst ih
        exact absurd (he.symm.trans (hnb _ ha ho)) hne
    refine ⟨hon, Or.inr ?_⟩
    have hemp : pos p = none := by
      apply Classical.byContradiction
      intro hn
      obtain ⟨q, r, hq, ha, ho, he⟩ := nd p hon hn
      obtain rfl := hself hne q hq
      rw [hnb r ha ho] at he
      cases he
    refine ⟨hon, hemp, ⟨p, x, .refl _, hax, (hl.stones x hx).1, (hl.stones x hx).2⟩, ?_⟩
    rintro ⟨q, r, hq, ha, ho, he⟩
    obtain rfl := hself hne q hq
    rw [hnb r ha ho] at he
    cases c <;> cases he

/-- So many held points, so many points. -/
theorem held_area {n : Dim} {pos : Pos} {sa : Bool} (hl : Lives n pos c sa X Rs) (nd : NoDead n pos) {l : List Coord} (hnd : l.Nodup)
    (hh : ∀ p ∈ l, Secure X Rs p) : l.length ≤ Spec.territorySize n pos c + Spec.count n pos (some c) := by
  classical
  have h1 : l ⊆ (Spec.points n).filter (fun p => decide (Territory n pos c p)) ++ (Spec.points n).filter (fun p => pos p = some c) := by
    intro p hp
    obtain ⟨ho, h⟩ := held_counts hl nd (hh p hp)
    rw [List.mem_append, List.mem_filter, List.mem_filter]
    rcases h with h | h
    · exact Or.inr ⟨mem_points.2 ho, by simpa using h⟩
    · exact Or.inl ⟨mem_points.2 ho, by simpa using h⟩
  have := (List.subperm_of_subset hnd h1).length_le
  rw [List.length_append] at this
  unfold Spec.territorySize Spec.count
  exact this

/-- Living goes on. -/
theorem lives_sparing (h : Legal dbg n m g) (hl : Lives n g.goban.view c (!g.rule.flagIllegal.suicide) X Rs)
    (hsp : Sparing dbg n c (fun p => ∃ R, Rs R ∧ R p) g g') :
    (∃ m', Legal dbg n m' g') ∧ Lives n g'.goban.view c (!g'.rule.flagIllegal.suicide) X Rs := by
  induction hsp with
  | start => exact ⟨⟨m, h⟩, hl⟩
  | call _ hop hsp e1 ih =>
    obtain ⟨⟨m1, h1⟩, hl1⟩ := ih
    exact ⟨h1.call hop e1, (lives_call h1 hl1 hop (fun ht x y hxy R hR hxy' => hsp ht x y hxy ⟨R, hR, hxy'⟩) e1).1⟩

/-- **C119**. Whatever is played, as long as the player puts no stone into the regions their stones live by, the area score of that
player is at least the number of the points held, and the opponent's at most that of the others. -/
theorem C119_score (h : Legal dbg n m g) (hl : Lives n g.goban.view c (!g.rule.flagIllegal.suicide) X Rs)
    (hsp : Sparing dbg n c (fun p => ∃ R, Rs R ∧ R p) g g') {l : List Coord} (hnd : l.Nodup) (hh : ∀ p ∈ l, Secure X Rs p)
    (hord : ∀ l, (ord l).Perm l) :
    ∃ b w : Nat, g'.calculateScoreBy dbg ord (areaFlags false) = .ok (.fin b, .fin w) ∧ b + w ≤ n * n ∧
      (c = .black → l.length ≤ b) ∧ (c = .white → l.length ≤ w) := by
  obtain ⟨⟨m', h'⟩, hl'⟩ := lives_sparing h hl hsp
  have hx : Exact g' (areaFlags false) 0 := ⟨fun h => (by cases h), by decide, fun h => (by cases h), fun h => (by cases h)⟩
  have hk := held_area hl' (C10_no_dead_groups h') hnd hh
  have ha : _ = n * n := area_total (n := n) g'.goban.view
  refine ⟨blackPoints n g' (areaFlags false), whitePoints n g' (areaFlags false), ?_, ?_, ?_, ?_⟩
  · rw [C21_calculate_score_by h'.reach.choose_spec.2 hx hord]
    simp only [areaFlags, Bool.false_eq_true, if_false]
    congr 3
    grind
  · simp only [blackPoints, whitePoints, areaFlags, Bool.false_eq_true, if_false, if_true]
    omega
  · rintro rfl
    simp only [blackPoints, areaFlags, Bool.false_eq_true, if_false, if_true]
    omega
  · rintro rfl
    simp only [whitePoints, areaFlags, Bool.false_eq_true, if_false, if_true]
    omega

/-- What the opponent of living stones cannot force. -/
theorem hold {W : Option Color → Prop} {r : Rule}
    (hW : ∀ m g1, Legal dbg n m g1 → Lives n g1.goban.view c (!g1.rule.flagIllegal.suicide) X Rs → g1.outcome = none → 2 ≤ g1.passes →
      g1.rule = r → ∀ e, g1.getOutcome dbg ord = .ok (some e) → ¬ W e.getWinner) (hR : Reaches dbg ord n c.opp W g) :
    ∀ m, Legal dbg n m g → Lives n g.goban.view c (!g.rule.flagIllegal.suicide) X Rs → g.outcome = none → g.rule = r → False := by
  induction hR with
  | @over g e hov he hw =>
    intro m h hl ho hr
    refine hW m g h hl ho ?_ hr e he hw
    unfold Game.isOver at hov
    rw [ho] at hov
    simpa using hov
  | @own g mv g' hov ht hmv e1 _ ih =>
    intro m h hl ho hr
    obtain ⟨ho', hr'⟩ := accepted_outcome hmv h.reach.choose_spec.2 e1
    refine ih _ (.tryPlay h hmv.onBoard e1) (lives_call (op := .try_ mv) h hl hmv.onBoard (fun htc => ?_) e1).1 (by rw [ho', ho]) (by rw [hr', hr])
    exact absurd (ht.symm.trans htc) (opp_ne c)
  | @other g hov ht _ ih =>
    intro m h hl ho hr
    have hp : g.passes < 2 := by
      unfold Game.isOver at hov
      rw [ho] at hov
      simpa using hov
    have e1 := tryPlay_pass (dbg := dbg) hp
    exact ih .pass _ trivial e1 _ (.tryPlay h (mv := .pass) trivial e1)
      (lives_call (op := .try_ .pass) h hl trivial (fun _ x y hxy => by cases hxy) e1).1 ho hr

/-- By how many half points a player who holds `k` points of the board is sure to lead, with a komi of `K` half points. -/
def sureLead (n k : Nat) (K : Int) : Color → Int
  | .black => 2 * (2 * k - n * n) - K
  | .white => 2 * (2 * k - n * n) + K

/-- The result of a finished game with living stones. -/
theorem held_result {K : Int} (h : Legal dbg n m g) (hl : Lives n g.goban.view c (!g.rule.flagIllegal.suicide) X Rs) (ho : g.outcome = none)
    (h2 : 2 ≤ g.passes) (hst : g.rule.flagScore.stones = true) (hpr : g.rule.flagScore.prisonners = false)
    (hk : g.rule.flagScore.komi = true → g.rule.komi = .fin ((K : Rat) / 2)) (hK : K.natAbs < 2 ^ 21) {l : List Coord} (hnd : l.Nodup)
    (hh : ∀ p ∈ l, Secure X Rs p) (hord : ∀ l, (ord l).Perm l) {e : EndGame} (he : g.getOutcome dbg ord = .ok (some e)) :
    (0 < sureLead n l.length (if g.rule.flagScore.komi then K else 0) c → e.getWinner = some c) ∧
    (0 ≤ sureLead n l.length (if g.rule.flagScore.komi then K else 0) c → e.getWinner ≠ some c.opp) := by
  have hx : Exact g g.rule.flagScore K := ⟨hk, hK, fun h => (by rw [hpr] at h; cases h), fun h => (by rw [hpr] at h; cases h)⟩
  have hha := held_area hl (C10_no_dead_groups h) hnd hh
  have ha : _ = n * n := area_total (n := n) g.goban.view
  obtain ⟨b, w, es, r1, r2, r3⟩ := C22_two_passes h.reach.choose_spec.2 ho h2 hx hord
  have es' : g.calculateScore dbg ord = _ := C21_calculate_score_by h.reach.choose_spec.2 hx hord
  rw [es'] at es
  have hcast : ∀ {B Wh : Nat} {d K' : Int}, b = (B : Rat) → w = (Wh : Rat) + (K' : Rat) / 2 → d = 2 * ((B : Int) - Wh) - K' → (d : Rat) = 2 * (b - w) := by
    intro B Wh d K' hb hw hd
    rw [hd, hb, hw, Rat.intCast_sub, Rat.intCast_mul, Rat.intCast_sub, Rat.intCast_natCast, Rat.intCast_natCast]
    show 2 * _ - _ = _
    grind
  injection es with es
  injection es with eb ew
  injection eb with eb
  injection ew with ew
  have hw : w = ((whitePoints n g g.rule.flagScore : Nat) : Rat) + ((if g.rule.flagScore.komi then K else 0 : Int) : Rat) / 2 := by
    rw [← ew]
    split
    · rfl
    · congr 1; decide +kernel
  have hd := hcast eb.symm hw rfl
  generalize (if g.rule.flagScore.komi then K else 0 : Int) = K' at *
  have hB : blackPoints n g g.rule.flagScore = Spec.territorySize n g.goban.view .black + Spec.count n g.goban.view (some .black) := by
    unfold blackPoints; rw [hst, hpr]; rfl
  have hWh : whitePoints n g g.rule.flagScore = Spec.territorySize n g.goban.view .white + Spec.count n g.goban.view (some .white) := by
    unfold whitePoints; rw [hst, hpr]; rfl
  generalize blackPoints n g g.rule.flagScore = B at *
  generalize whitePoints n g g.rule.flagScore = Wh at *
  generalize hD : 2 * ((B : Int) - Wh) - K' = D at hd
  have hwin : e.getWinner = if 0 < D then some .black else if D < 0 then some .white else none := by
    by_cases h1 : 0 < D
    · have : (0 : Rat) < D := Rat.intCast_pos.2 h1
      rw [r2 (by grind)] at he
      cases he
      rw [if_pos h1]; rfl
    · by_cases h3 : D < 0
      · have : (D : Rat) < 0 := Rat.intCast_neg_iff.2 h3
        rw [r3 (by grind)] at he
        cases he
        rw [if_neg h1, if_pos h3]; rfl
      · have : D = 0 := by omega
        rw [this] at hd
        have hd : (0 : Rat) = 2 * (b - w) := hd
        rw [r1 (by grind)] at he
        cases he
        rw [if_neg h1, if_neg h3]; rfl
  rw [hwin]
  generalize hN : n * n = N at *
  have hNi : (n : Int) * n = N := by exact_mod_cast hN
  cases c with
  | black =>
    unfold sureLead
    rw [hNi]
    dsimp only
    constructor
    · intro hs
      rw [if_pos (by omega)]
    · intro hs
      by_cases h1 : 0 < D
      · rw [if_pos h1]; simp [Color.opp]
      · rw [if_neg h1, if_neg (by omega)]; simp
  | white =>
    unfold sureLead
    rw [hNi]
    dsimp only
    constructor
    · intro hs
      rw [if_neg (by omega), if_pos (by omega)]
    · intro hs
      rw [if_neg (by omega)]
      split <;> simp [Color.opp]

/-- **C119**. A player whose living stones and eyes are enough of the board wins: they can force a win if the points they hold are more
than the others, komi included, and make sure not to lose if they are not fewer. Under every rule that counts area. -/
theorem C119_majority {K : Int} (h : Legal dbg n m g) (hl : Lives n g.goban.view c (!g.rule.flagIllegal.suicide) X Rs)
    (ho : g.outcome = none) (hst : g.rule.flagScore.stones = true) (hpr : g.rule.flagScore.prisonners = false)
    (hk : g.rule.flagScore.komi = true → g.rule.komi = .fin ((K : Rat) / 2)) (hK : K.natAbs < 2 ^ 21) {l : List Coord} (hnd : l.Nodup)
    (hh : ∀ p ∈ l, Secure X Rs p) (hord : ∀ l, (ord l).Perm l) :
    (0 < sureLead n l.length (if g.rule.flagScore.komi then K else 0) c → Forces dbg ord n c g) ∧
    (0 ≤ sureLead n l.length (if g.rule.flagScore.komi then K else 0) c → Secures dbg ord n c g) := by
  constructor
  · intro hs
    apply Classical.byContradiction
    intro hn
    refine hold (r := g.rule) ?_ ((C94_determined h.reach.choose_spec.2 hord c).2 hn) m h hl ho rfl
    intro m1 g1 h1 hl1 ho1 hp1 hr e he hw
    refine hw ?_
    rw [opp_opp]
    exact (held_result h1 hl1 ho1 hp1 (by rw [hr]; exact hst) (by rw [hr]; exact hpr) (by rw [hr]; exact hk) hK hnd hh hord he).1 (by rw [hr]; exact hs)
  · intro hs
    have := (C94_determined (dbg := dbg) h.reach.choose_spec.2 hord c.opp)
    rw [opp_opp] at this
    refine this.2 fun hF => hold (r := g.rule) ?_ hF m h hl ho rfl
    intro m1 g1 h1 hl1 ho1 hp1 hr e he hw
    exact (held_result h1 hl1 ho1 hp1 (by rw [hr]; exact hst) (by rw [hr]; exact hpr) (by rw [hr]; exact hk) hK hnd hh hord he).2 (by rw [hr]; exact hs) hw

/-- **C119**, one group: `k` stones with two eyes hold `k + 2` points. -/
theorem C119_two_eyes {K : Int} (h : Legal dbg n m g) {s p q : Coord} (h2 : Spec.TwoEyes n g.goban.view c s p q)
    (ho : g.outcome = none) (hst : g.rule.flagScore.stones = true) (hpr : g.rule.flagScore.prisonners = false)
    (hk : g.rule.flagScore.komi = true → g.rule.komi = .fin ((K : Rat) / 2)) (hK : K.natAbs < 2 ^ 21) {l : List Coord} (hnd : l.Nodup)
    (hh : ∀ x ∈ l, Linked n g.goban.view s x) (hord : ∀ l, (ord l).Perm l) :
    (0 < sureLead n (l.length + 2) (if g.rule.flagScore.komi then K else 0) c → Forces dbg ord n c g) ∧
    (0 ≤ sureLead n (l.length + 2) (if g.rule.flagScore.komi then K else 0) c → Secures dbg ord n c g) := by
  have hl := h2.lives (sa := !g.rule.flagIllegal.suicide)
  have hnb : ∀ e, Spec.EyeOf n g.goban.view s e → (fun R : Coord → Prop => R = (· = p) ∨ R = (· = q)) (· = e) → ∃ x, Adj e x ∧ Linked n g.goban.view s x := by
    intro e he hR
    obtain ⟨R, R', hR1, hR2, ⟨r, hr⟩, ⟨r', hr'⟩, hdis, hv, hv'⟩ := hl.two s (.refl _)
    have hone : ∀ {R : Coord → Prop} {r}, (R = (· = p) ∨ R = (· = q)) → R r → (r = p ∧ R = (· = p)) ∨ (r = q ∧ R = (· = q)) := by
      rintro R r (rfl | rfl) h
      · exact Or.inl ⟨h, rfl⟩
      · exact Or.inr ⟨h, rfl⟩
    have hpe : e = p ∨ e = q := by
      rcases hR with h | h
      · exact Or.inl ((congrFun h e).mp rfl)
      · exact Or.inr ((congrFun h e).mp rfl)
    have hR1' := hone hR1 hr
    have hR2' := hone hR2 hr'
    have : R e ∨ R' e := by
      rcases hR1' with ⟨_, rfl⟩ | ⟨_, rfl⟩ <;> rcases hR2' with ⟨_, rfl⟩ | ⟨_, rfl⟩
      · exact absurd hr' (hdis r' hr')
      · exact hpe
      · exact hpe.symm
      · exact absurd hr' (hdis r' hr')
    rcases this with h | h
    · exact hv e h (Or.inl he.2.1)
    · exact hv' e h (Or.inl he.2.1)
  obtain ⟨_, hvs, hpq, hp, hq⟩ := h2
  have hemp : ∀ e, Spec.EyeOf n g.goban.view s e → e ∉ l := by
    intro e he hm
    have := linked_same (hh e hm)
    rw [he.2.1, hvs] at this
    cases this
  have := C119_majority (l := p :: q :: l) h hl ho hst hpr hk hK
    (List.nodup_cons.2 ⟨by rw [List.mem_cons]; exact fun h => h.elim hpq (hemp p hp), List.nodup_cons.2 ⟨hemp q hq, hnd⟩⟩)
    (fun x hx => ?_) hord
  · exact this
  · rcases List.mem_cons.1 hx with rfl | hx
    · exact Or.inr ⟨Or.inl rfl, hnb _ hp (Or.inl rfl)⟩
    · rcases List.mem_cons.1 hx with rfl | hx
      · exact Or.inr ⟨Or.inr rfl, hnb _ hq (Or.inr rfl)⟩
      · exact Or.inl (hh x hx)

/-- Non-vacuity of C119: on the 3 × 3 board of `exAlive` Black has a group of four stones with two eyes, six points of nine, and so
can force a win with a komi of 2.5 and make sure not to lose with one of 3. -/
theorem C119_six_of_nine (hord : ∀ l, (ord l).Perm l) : ∃ g, Legal true 3 7 g ∧ g.rule = CHINESE ∧ g.turn = .white ∧
    Forces true ord 3 .black (g.setKomi (.fin (((5 : Int) : Rat) / 2))) ∧
    Secures true ord 3 .black (g.setKomi (.fin (((6 : Int) : Rat) / 2))) := by
  have : okAnd (mkGame true 3 CHINESE exAlive) (fun g => decide (g.turn = .white) && decide (g.outcome = none) && decide (g.rule = CHINESE) &&
      shows g 3 [none, some .black, none, some .black, some .black, some .black, some .white, some .white, none]) = true := by
    decide +kernel
  obtain ⟨g, hl, hg⟩ := mkGame_exists (by decide) this
  simp only [Bool.and_eq_true, decide_eq_true_eq, shows] at hg
  obtain ⟨⟨⟨h1, h2⟩, hr⟩, h3⟩ := hg
  have h3' : (Spec.points 3).map g.goban.view = _ := h3
  rw [show Spec.points 3 = [(0, 0), (0, 1), (0, 2), (1, 0), (1, 1), (1, 2), (2, 0), (2, 1), (2, 2)] by decide] at h3'
  simp only [List.map_cons, List.map_nil, List.cons.injEq, and_true] at h3'
  obtain ⟨v0, v1, v2, v3, v4, v5, _⟩ := h3'
  have l1 : Linked 3 g.goban.view (1, 1) (0, 1) := .step (.refl _) (by decide) (by decide) (by rw [v1, v4])
  have l3 : Linked 3 g.goban.view (1, 1) (1, 0) := .step (.refl _) (by decide) (by decide) (by rw [v3, v4])
  have l5 : Linked 3 g.goban.view (1, 1) (1, 2) := .step (.refl _) (by decide) (by decide) (by rw [v5, v4])
  have e0 : Spec.EyeOf 3 g.goban.view (1, 1) (0, 0) := by
    refine ⟨by decide, v0, ?_⟩
    rintro ⟨a, b⟩ ha ⟨ho1, ho2⟩
    have : (a = 0 ∧ b = 1) ∨ (a = 1 ∧ b = 0) := by unfold Adj at ha; dsimp only at ha; omega
    rcases this with ⟨rfl, rfl⟩ | ⟨rfl, rfl⟩
    · exact l1
    · exact l3
  have e2 : Spec.EyeOf 3 g.goban.view (1, 1) (0, 2) := by
    refine ⟨by decide, v2, ?_⟩
    rintro ⟨a, b⟩ ha ⟨ho1, ho2⟩
    have ho2 : b < 3 := ho2
    have : (a = 0 ∧ b = 1) ∨ (a = 1 ∧ b = 2) := by unfold Adj at ha; dsimp only at ha; omega
    rcases this with ⟨rfl, rfl⟩ | ⟨rfl, rfl⟩
    · exact l1
    · exact l5
  have h2e : Spec.TwoEyes 3 g.goban.view .black (1, 1) (0, 0) (0, 2) := ⟨by decide, v4, by decide, e0, e2⟩
  have hall : ∀ x ∈ [(1, 1), (0, 1), (1, 0), (1, 2)], Linked 3 g.goban.view (1, 1) x := by
    intro x hx
    simp only [List.mem_cons, List.not_mem_nil, or_false] at hx
    rcases hx with rfl | rfl | rfl | rfl
    · exact .refl _
    · exact l1
    · exact l3
    · exact l5
  have key := fun (K : Int) (hK : K.natAbs < 2 ^ 21) =>
    C119_two_eyes (K := K) (n := 3) (l := [(1, 1), (0, 1), (1, 0), (1, 2)]) (.setKomi hl (k := .fin ((K : Rat) / 2))) h2e h2
      (by show g.rule.flagScore.stones = true; rw [hr]; rfl) (by show g.rule.flagScore.prisonners = false; rw [hr]; rfl) (fun _ => rfl) hK (by decide) hall hord
  refine ⟨g, hl, hr, h1, (key 5 (by decide)).1 ?_, (key 6 (by decide)).2 ?_⟩ <;>
  · show _ ≤ sureLead 3 6 (if g.rule.flagScore.komi then _ else 0) .black
    rw [hr]; decide

end Model
