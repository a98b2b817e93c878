import Verif.Props.Finite
/-!
# Games under super-ko are finite: C58
-/

namespace Model
open Spec (OnBoard Adj Linked HasLiberty NoDead place SameOn Pos Suicide State)

variable {dbg : Bool} {n : Dim} {m : Nat} {o : Option EndGame} {g : Game} {s : State}

/-! ## Counting positions -/

/-- A position restricted to a list of points, written as a number in base 3. -/
def codeOf (pos : Pos) : List Coord → Nat
  | [] => 0
  | p :: l => (match pos p with | none => 0 | some .black => 1 | some .white => 2) + 3 * codeOf pos l

theorem codeOf_lt (pos : Pos) : ∀ l : List Coord, codeOf pos l < 3 ^ l.length
  | [] => by simp [codeOf]
  | p :: l => by
    have ih := codeOf_lt pos l
    unfold codeOf
    rw [List.length_cons, Nat.pow_succ]
    cases pos p with
    | none => dsimp only; omega
    | some c => cases c <;> dsimp only <;> omega

theorem codeOf_inj {a b : Pos} : ∀ l : List Coord, codeOf a l = codeOf b l → ∀ p ∈ l, a p = b p
  | [], _, p, hp => by cases hp
  | q :: l, h, p, hp => by
    unfold codeOf at h
    have key : a q = b q ∧ codeOf a l = codeOf b l := by
      rcases ha : a q with _ | ⟨_ | _⟩ <;> rcases hb : b q with _ | ⟨_ | _⟩ <;> rw [ha, hb] at h <;> dsimp only at h <;>
        first
        | exact ⟨rfl, by omega⟩
        | omega
    rcases List.mem_cons.1 hp with rfl | hp
    · exact key.1
    · exact codeOf_inj l key.2 p hp

/-- The number of zeros among the last `k` digits in base 3. -/
def zerosOf : Nat → Nat → Nat
  | 0, _ => 0
  | k + 1, x => (if x % 3 = 0 then 1 else 0) + zerosOf k (x / 3)

theorem zerosOf_code (pos : Pos) : ∀ l : List Coord,
    zerosOf l.length (codeOf pos l) = (l.filter (fun p => decide (pos p = none))).length
  | [] => rfl
  | p :: l => by
    have ih := zerosOf_code pos l
    unfold codeOf
    rw [List.length_cons, zerosOf, List.filter_cons]
    cases hp : pos p with
    | none =>
      have h1 : (0 + 3 * codeOf pos l) % 3 = 0 := by omega
      have h2 : (0 + 3 * codeOf pos l) / 3 = codeOf pos l := by omega
      dsimp only
      rw [h1, h2, ih]; simp; omega
    | some c =>
      cases c <;> dsimp only
      · have h1 : (1 + 3 * codeOf pos l) % 3 = 1 := by omega
        have h2 : (1 + 3 * codeOf pos l) / 3 = codeOf pos l := by omega
        rw [h1, h2, ih]; simp
      · have h1 : (2 + 3 * codeOf pos l) % 3 = 2 := by omega
        have h2 : (2 + 3 * codeOf pos l) / 3 = codeOf pos l := by omega
        rw [h1, h2, ih]; simp

theorem sum_range_three (f : Nat → Nat) : ∀ m : Nat, ((List.range (3 * m)).map f).sum =
    ((List.range m).map (fun y => f (3 * y) + f (3 * y + 1) + f (3 * y + 2))).sum
  | 0 => rfl
  | m + 1 => by
    have ih := sum_range_three f m
    rw [show 3 * (m + 1) = 3 * m + 1 + 1 + 1 by omega, List.range_succ, List.range_succ, List.range_succ, List.range_succ]
    simp only [List.map_append, List.sum_append, List.map_cons, List.map_nil, List.sum_cons, List.sum_nil]
    rw [ih]; omega

theorem sum_map_affine (f : Nat → Nat) (l : List Nat) : (l.map (fun y => 1 + 3 * f y)).sum = l.length + 3 * (l.map f).sum := by
  induction l with
  | nil => rfl
  | cons a l ih => simp only [List.map_cons, List.sum_cons, List.length_cons, ih]; omega

/-- All positions together have `k * 3 ^ (k - 1)` empty points. -/
theorem zerosOf_sum : ∀ k : Nat, ((List.range (3 ^ k)).map (zerosOf k)).sum = k * 3 ^ (k - 1)
  | 0 => rfl
  | k + 1 => by
    have ih := zerosOf_sum k
    have h : (List.range (3 ^ k)).map (fun y => zerosOf (k + 1) (3 * y) + zerosOf (k + 1) (3 * y + 1) + zerosOf (k + 1) (3 * y + 2)) =
        (List.range (3 ^ k)).map (fun y => 1 + 3 * zerosOf k y) := by
      apply List.map_congr_left
      intro y _
      simp only [zerosOf]
      have h1 : 3 * y % 3 = 0 := by omega
      have h2 : (3 * y + 1) % 3 = 1 := by omega
      have h3 : (3 * y + 2) % 3 = 2 := by omega
      have h4 : 3 * y / 3 = y := by omega
      have h5 : (3 * y + 1) / 3 = y := by omega
      have h6 : (3 * y + 2) / 3 = y := by omega
      rw [h1, h2, h3, h4, h5, h6]
      simp; omega
    rw [Nat.pow_succ, Nat.mul_comm, sum_range_three, h, sum_map_affine, List.length_range, ih]
    cases k with
    | zero => rfl
    | succ k =>
      simp only [Nat.add_sub_cancel]
      rw [Nat.add_mul (k + 1) 1, Nat.one_mul, Nat.pow_succ 3 k, ← Nat.mul_assoc (k + 1), Nat.mul_comm 3]
      omega

theorem sum_sublist {l l' : List Nat} (f : Nat → Nat) (h : l.Sublist l') : (l.map f).sum ≤ (l'.map f).sum := by
  induction h with
  | slnil => exact Nat.le_refl _
  | cons a _ ih => simp only [List.map_cons, List.sum_cons]; omega
  | cons_cons a _ ih => simp only [List.map_cons, List.sum_cons]; omega

theorem sum_perm {l l' : List Nat} (f : Nat → Nat) (h : l.Perm l') : (l.map f).sum = (l'.map f).sum := by
  induction h with
  | nil => rfl
  | cons a _ ih => simp only [List.map_cons, List.sum_cons]; omega
  | swap a b l => simp only [List.map_cons, List.sum_cons]; omega
  | trans _ _ ih1 ih2 => exact ih1.trans ih2

/-! ## The measure -/

/-- The empty points of the different positions of a list, added up. -/
noncomputable def room (n : Dim) (l : List Pos) : Nat := ((Spec.firsts n l).map (fun q => Spec.count n q none)).sum

/-- Different positions have at most `A * 3 ^ (A - 1)` empty points together. -/
theorem room_le (l : List Pos) : room n l ≤ n.area * 3 ^ (n.area - 1) := by
  have hnd : ((Spec.firsts n l).map (fun p => codeOf p (Spec.points n))).Nodup := by
    unfold List.Nodup
    rw [List.pairwise_map]
    refine (firsts_pairwise l).imp ?_
    intro a b hab he
    exact hab (fun p hp => codeOf_inj _ he p (mem_points.2 hp))
  have hsub : ((Spec.firsts n l).map (fun p => codeOf p (Spec.points n))) ⊆ List.range (3 ^ n.area) := by
    intro x hx
    obtain ⟨p, _, rfl⟩ := List.mem_map.1 hx
    rw [List.mem_range]
    have := codeOf_lt p (Spec.points n)
    rwa [points_length] at this
  obtain ⟨l', hp, hs⟩ := hnd.subperm hsub
  have h1 := sum_sublist (zerosOf n.area) hs
  rw [sum_perm _ hp, zerosOf_sum, List.map_map] at h1
  refine Nat.le_trans (Nat.le_of_eq ?_) h1
  unfold room
  congr 1
  apply List.map_congr_left
  intro q _
  have := zerosOf_code q (Spec.points n)
  rw [points_length] at this
  exact this.symm

theorem room_mono (l : List Pos) (p : Pos) : room n l ≤ room n (l ++ [p]) := by
  unfold room
  rw [firsts_append]
  split
  · exact Nat.le_refl _
  · simp

theorem room_new (l : List Pos) (p : Pos) (h : ¬ ∃ q ∈ l, SameOn n q p) : room n (l ++ [p]) = room n l + Spec.count n p none := by
  unfold room
  rw [firsts_append, if_neg (by rw [mem_firsts]; exact h)]
  simp

theorem room_last (l : List Pos) (p : Pos) : Spec.count n p none ≤ room n (l ++ [p]) := by
  obtain ⟨q, hq, hs⟩ := (mem_firsts (n := n) (p := p) (l := l ++ [p])).2 ⟨p, by simp, fun _ _ => rfl⟩
  unfold room
  rw [← count_congr hs]
  generalize Spec.firsts n (l ++ [p]) = l' at hq
  induction l' with
  | nil => cases hq
  | cons a l' ih =>
    simp only [List.map_cons, List.sum_cons]
    rcases List.mem_cons.1 hq with rfl | hq
    · omega
    · have := ih hq; omega

theorem count_total (pos : Pos) :
    Spec.count n pos none + Spec.count n pos (some .black) + Spec.count n pos (some .white) = n.area := by
  have hl : (Spec.points n).length = n.area := points_length n
  rw [← hl]
  unfold Spec.count
  generalize Spec.points n = l
  induction l with
  | nil => rfl
  | cons p l ih =>
    simp only [List.filter_cons, List.length_cons]
    rcases hp : pos p with _ | ⟨_ | _⟩ <;> simp <;> omega

theorem empties_place {pos : Pos} {p : Coord} {c : Color} (hp : OnBoard n p) (he : pos p = none) :
    Spec.count n (place pos p c) none + 1 = Spec.count n pos none := by
  have h1 := count_total (n := n) pos
  have h2 := count_total (n := n) (place pos p c)
  rw [count_place hp he, count_place hp he] at h2
  cases c <;> simp at h2 <;> omega

theorem empties_pos {pos : Pos} {p : Coord} (hp : OnBoard n p) (he : pos p = none) : 1 ≤ Spec.count n pos none := by
  have := empties_place (c := .black) hp he
  omega

theorem firsts_length_append (l : List Pos) (p : Pos) : (Spec.firsts n l).length ≤ (Spec.firsts n (l ++ [p])).length := by
  rw [firsts_append]
  split
  · exact Nat.le_refl _
  · simp

/-- The position after a play that is not suicide, when suicide is forbidden. -/
theorem apply_pos {r : Spec.Forbidden} (hs : r.suicide = true) {p : Coord} :
    (Spec.apply n r s (.play p)).pos = after n s.pos p s.turn := by
  show Spec.play n (!r.suicide) s.pos p s.turn = _
  rw [hs]; rfl

/-- A stone that super-ko lets pass makes progress: a stone that captures brings about a new position, one that does not leaves an
empty point less. -/
theorem progress_play {r : Spec.Forbidden} (hs : r.suicide = true) {p : Coord} (hp : OnBoard n p) (he : s.pos p = none)
    (h3 : 3 ≤ (Spec.firsts n s.played).length) (hk : ¬ Spec.SuperKoSeen n (!r.suicide) s p) :
    room n (s.played ++ [s.pos]) + Spec.count n (Spec.apply n r s (.play p)).pos none + 1 ≤
      room n ((Spec.apply n r s (.play p)).played ++ [(Spec.apply n r s (.play p)).pos]) + Spec.count n s.pos none := by
  rw [apply_pos hs]
  show _ ≤ room n (s.played ++ [s.pos] ++ [after n s.pos p s.turn]) + _
  have h1 := empties_pos hp he
  by_cases hc : Spec.Captures n s.pos p s.turn
  · rw [room_new (s.played ++ [s.pos])]
    · omega
    · rintro ⟨q, hq, hsame⟩
      rcases List.mem_append.1 hq with hq | hq
      · refine hk ⟨h3, hc, q, hq, ?_⟩
        rw [hs]
        exact SameOn.symm hsame
      · rw [List.mem_singleton.1 hq] at hsame
        have := hsame p hp
        rw [after_self, he] at this
        cases this
  · have h2 := room_mono (n := n) (s.played ++ [s.pos]) (after n s.pos p s.turn)
    have h3 : Spec.count n (after n s.pos p s.turn) none + 1 = Spec.count n s.pos none := by
      rw [← empties_place (c := s.turn) hp he]
      have : SameOn n (after n s.pos p s.turn) (place s.pos p s.turn) := by
        intro q hq
        unfold after Spec.removeDead
        split
        · rename_i h'
          refine absurd ⟨q, hq, ?_, ?_⟩ hc
          · by_cases hqp : q = p
            · subst hqp
              rw [place_self] at h'
              exact absurd (Option.some.inj h'.1) (Color.ne_opp _)
            · rw [← h'.1]; unfold place; rw [if_neg hqp]
          · unfold Spec.removeDead; rw [if_pos h']
        · rfl
      rw [count_congr this]
    omega

/-! ## Runs -/

/-- A call that plays a stone. -/
def GOp.isStone : GOp → Bool
  | .try_ (.play _ _) => true
  | _ => false

/-- The number of stones a run has accepted. -/
def stonesAccepted (cs : List GOp) (es : List (Option PlayError)) : Nat := ((accepted cs es).filter GOp.isStone).length

/-- What a call does to the abstract state: nothing to stones and history, or an accepted stone. -/
theorem Sim.call_stone (h : Sim dbg n m o g s) (c : GOp) (hc : c.OnBoard n) (hp2 : s.passes ≤ 2) :
    Safe g.Full (g.call dbg c) (fun r => r.2.rule.flagIllegal = g.rule.flagIllegal ∧ ∃ m' s', Sim dbg n m' o r.2 s' ∧ s'.passes ≤ 2 ∧
      ((s'.pos = s.pos ∧ s'.played = s.played ∧ m' = m ∧ ¬ (r.1 = none ∧ c.isStone = true)) ∨
       (r.1 = none ∧ c.isStone = true ∧ m' = m + 1 ∧ ∃ p, OnBoard n p ∧ s.pos p = none ∧
          Spec.answerSeen n g.rule.flagIllegal.forbidden s (.play p) = .ok ∧
          s' = Spec.apply n g.rule.flagIllegal.forbidden s (.play p)))) := by
  rcases h.call_any (dbg := dbg) c hc hp2 with ⟨r, e, hr, hsame, hok⟩ | hpanic
  swap
  · exact Or.inr hpanic
  refine Or.inl ⟨r, e, hr, ?_⟩
  by_cases hn : r.1 = none
  · obtain ⟨h2, m', hm', hs'⟩ := hok hn
    cases c with
    | resume =>
      cases e
      exact ⟨m, _, h.resume, Nat.zero_le _, Or.inl ⟨rfl, rfl, rfl, fun h => by cases h.2⟩⟩
    | setKomi k =>
      cases e
      exact ⟨m, _, h.setKomi k, hp2, Or.inl ⟨rfl, rfl, rfl, fun h => by cases h.2⟩⟩
    | try_ mv =>
      have e' : g.tryPlay dbg mv = .ok (none, r.2) := by rw [← hn]; exact e
      have ep := C13_accepted_is_play e'
      cases mv with
      | pass =>
        unfold Game.play at ep
        obtain ⟨_, _, ep⟩ := bind_eq_ok ep
        have hg : r.2.goban = g.goban := by rw [← Except.ok.inj ep]
        exact ⟨m, _, hs'.mono (by rw [hg]; exact h.board), h2, Or.inl ⟨rfl, rfl, rfl, fun h => by cases h.2⟩⟩
      | resign c =>
        have hg : r.2.goban = g.goban := by rw [← Except.ok.inj ep]
        exact ⟨m, _, hs'.mono (by rw [hg]; exact h.board), h2, Or.inl ⟨rfl, rfl, rfl, fun h => by cases h.2⟩⟩
      | play x y =>
        have hans := (h.tryPlay_answer (dbg := dbg) (.play x y) hc hp2).of_ok e'
        have hans : Spec.answerSeen n g.rule.flagIllegal.forbidden s (.play (x, y)) = .ok := hans.symm
        have hpos : s.pos (x, y) = none := by
          rw [answerSeen_play] at hans
          split at hans
          · cases hans
          split at hans
          · cases hans
          · rename_i h'; exact Classical.not_not.1 h'
        have hv : g.goban.getColor (x, y) = .ok none := by rw [h.inv.getColor_view hc, h.pos _ hc, hpos]
        have hb : Board dbg n (m + 1) r.2.goban := by
          rw [play_eq] at ep
          obtain ⟨_, _, ep⟩ := bind_eq_ok ep
          obtain ⟨cp, e2, ep⟩ := bind_eq_ok ep
          rw [← Except.ok.inj ep]
          exact h.board.move hc hv e2
        exact ⟨m + 1, _, hs'.mono hb, h2, Or.inr ⟨hn, rfl, rfl, (x, y), hc, hpos, hans, rfl⟩⟩
  · refine ⟨m, s, by rw [hsame hn]; exact h, hp2, Or.inl ⟨rfl, rfl, rfl, fun h => hn h.1⟩⟩

/-- A property of stones and history that accepted stones keep holds all along a run. -/
theorem Sim.run_keeps {f : Spec.Forbidden} {K : State → Prop}
    (hK : ∀ s s' : State, s'.pos = s.pos → s'.played = s.played → K s → K s')
    (hplay : ∀ (s : State) p, OnBoard n p → s.pos p = none → Spec.answerSeen n f s (.play p) = .ok → K s → K (Spec.apply n f s (.play p))) :
    ∀ (cs : List GOp) {m : Nat} {g : Game} {s : State} {es : List (Option PlayError)} {g' : Game}, Sim dbg n m o g s → s.passes ≤ 2 →
      g.rule.flagIllegal.forbidden = f → K s → (∀ c ∈ cs, c.OnBoard n) → g.run dbg cs = .ok (es, g') →
      ∃ s', Sim dbg n (m + stonesAccepted cs es) o g' s' ∧ s'.passes ≤ 2 ∧ g'.rule.flagIllegal = g.rule.flagIllegal ∧ K s' ∧
        s'.played.length = s.played.length + stonesAccepted cs es
  | [], m, g, s, es, g', h, hp, hf, hk, _, e => by
    cases e
    exact ⟨s, h, hp, rfl, hk, rfl⟩
  | c :: cs, m, g, s, es, g', h, hp, hf, hk, hon, e => by
    obtain ⟨r, es', e1, e2, rfl⟩ := run_cons e
    obtain ⟨hr, m1, s1, h1, hp1, hcase⟩ := (h.call_stone (dbg := dbg) c (hon c (by simp)) hp).of_ok e1
    have hk1 : K s1 := by
      rcases hcase with ⟨a, b, _⟩ | ⟨_, _, _, p, a, b, c, d⟩
      · exact hK s s1 a b hk
      · rw [d, hf]; exact hplay s p a b (by rw [← hf]; exact c) hk
    obtain ⟨s', h2, hp', hr', hk', hl⟩ := Sim.run_keeps hK hplay cs h1 hp1 (by rw [hr]; exact hf) hk1
      (fun c hc => hon c (by simp [hc])) e2
    have key : m1 + stonesAccepted cs es' = m + stonesAccepted (c :: cs) (r.1 :: es') ∧
        s1.played.length + stonesAccepted cs es' = s.played.length + stonesAccepted (c :: cs) (r.1 :: es') := by
      have hacc : accepted (c :: cs) (r.1 :: es') = if r.1 = none then c :: accepted cs es' else accepted cs es' := rfl
      unfold stonesAccepted
      rw [hacc]
      rcases hcase with ⟨_, b, hm, hno⟩ | ⟨a, b, hm, p, _, _, _, d⟩
      · rw [b, hm]
        split
        · rename_i hn
          have : c.isStone = false := by
            cases hc : c.isStone with
            | false => rfl
            | true => exact absurd ⟨hn, hc⟩ hno
          rw [List.filter_cons, this]
          exact ⟨rfl, rfl⟩
        · exact ⟨rfl, rfl⟩
      · rw [if_pos a, List.filter_cons, if_pos b, hm, d, List.length_cons]
        show _ ∧ (s.played ++ [s.pos]).length + _ = _
        rw [List.length_append, List.length_singleton]
        omega
    rw [key.1] at h2
    exact ⟨s', h2, hp', hr'.trans hr, hk', by omega⟩

theorem answerSeen_ok {f : Spec.Forbidden} {p : Coord} (h : Spec.answerSeen n f s (.play p) = .ok) :
    ¬ (f.suicide = true ∧ Suicide n s.pos p s.turn) ∧ ¬ (f.superko = true ∧ Spec.SuperKoSeen n (!f.suicide) s p) := by
  unfold Spec.answerSeen at h
  dsimp only at h
  repeat' split at h
  all_goals first | exact ⟨by assumption, by assumption⟩ | cases h

/-- The bound: the empty points of all positions added up. -/
def superKoLife (n : Dim) : Nat := n.area * 3 ^ (n.area - 1)

/-- **C58**. Under a rule that forbids super-ko and suicide: once three different positions have been played from, at most
`A·3^(A-1)` more stones (`A` the number of points) are accepted, whatever the calls. -/
theorem C58_from_three_positions {g0 g1 : Game} {m0 : Nat} (hf : Fresh dbg n m0 g0) (hd : NoDead n g0.goban.view)
    (hsu : g0.rule.flagIllegal.suicide = true) (hsk : g0.rule.flagIllegal.superko = true)
    {cs ds : List GOp} (hcs : ∀ c ∈ cs, c.OnBoard n) (hds : ∀ c ∈ ds, c.OnBoard n)
    {es es' : List (Option PlayError)} (e : g0.run dbg cs = .ok (es, g1)) (h3 : 3 ≤ g1.history.length)
    (e' : g1.run dbg ds = .ok (es', g)) : stonesAccepted ds es' ≤ n.area * 3 ^ (n.area - 1) := by
  obtain ⟨m', _, hs, hr, hps⟩ := run_sim hf hd hcs e
  rw [hs.hist.length] at h3
  have hsu' : g1.rule.flagIllegal.forbidden.suicide = true := by rw [hr]; exact hsu
  have hsk' : g1.rule.flagIllegal.forbidden.superko = true := by rw [hr]; exact hsk
  have hl0 := room_last (n := n) (g0.abstractly n cs es).played (g0.abstractly n cs es).pos
  obtain ⟨s', _, _, _, hk', hl⟩ := Sim.run_keeps (dbg := dbg) (f := g1.rule.flagIllegal.forbidden)
    (K := fun s => 3 ≤ (Spec.firsts n s.played).length ∧
      s.played.length + Spec.count n s.pos none ≤ (g0.abstractly n cs es).played.length + room n (s.played ++ [s.pos]))
    (by
      intro s s' h1 h2 ⟨h3, h4⟩
      refine ⟨by rw [h2]; exact h3, ?_⟩
      rw [h1, h2]; exact h4)
    (by
      intro s p hp he ha ⟨h3, h4⟩
      refine ⟨Nat.le_trans h3 (firsts_length_append _ _), ?_⟩
      have := progress_play hsu' hp he h3 (fun hc => (answerSeen_ok ha).2 ⟨hsk', hc⟩)
      show (s.played ++ [s.pos]).length + _ ≤ _
      rw [List.length_append, List.length_singleton]
      omega)
    ds hs hps rfl ⟨h3, by omega⟩ hds e'
  have := room_le (n := n) (s'.played ++ [s'.pos])
  have := hk'.2
  omega

/-- No stone on the board. -/
def Bare (n : Dim) (pos : Pos) : Prop := ∀ p, OnBoard n p → pos p = none

/-- What is known of a game that started from the empty board: the first three positions differ, then the measure counts. -/
def FromEmpty (n : Dim) (s : State) : Prop :=
  (s.played = [] ∧ Bare n s.pos) ∨
  (∃ a, s.played = [a] ∧ Bare n a ∧ ¬ Bare n s.pos) ∨
  (∃ a b, s.played = [a, b] ∧ Bare n a ∧ ¬ Bare n b ∧ ¬ Bare n s.pos ∧ ¬ SameOn n b s.pos) ∨
  (3 ≤ (Spec.firsts n s.played).length ∧ s.played.length + Spec.count n s.pos none ≤ 3 + room n (s.played ++ [s.pos]))

instance (pos : Pos) : Decidable (Bare n pos) :=
  decidable_of_iff (∀ p ∈ Spec.points n, pos p = none) ⟨fun h p hp => h p (mem_points.2 hp), fun h p hp => h p (mem_points.1 hp)⟩

theorem blank_congr {a b : Pos} (h : SameOn n a b) (hb : Bare n b) : Bare n a := fun p hp => (h p hp).trans (hb p hp)

theorem FromEmpty.play {f : Spec.Forbidden} (hsu : f.suicide = true) (hsk : f.superko = true) {p : Coord} (hp : OnBoard n p)
    (he : s.pos p = none) (ha : Spec.answerSeen n f s (.play p) = .ok) (h : FromEmpty n s) :
    FromEmpty n (Spec.apply n f s (.play p)) := by
  have hne : ¬ SameOn n s.pos (Spec.apply n f s (.play p)).pos := by
    intro h
    have := h p hp
    rw [apply_pos hsu, after_self, he] at this
    cases this
  have hnb : ¬ Bare n (Spec.apply n f s (.play p)).pos := by
    intro h
    have := h p hp
    rw [apply_pos hsu, after_self] at this
    cases this
  have hpl : (Spec.apply n f s (.play p)).played = s.played ++ [s.pos] := rfl
  rcases h with ⟨h1, h2⟩ | ⟨a, h1, h2, h3⟩ | ⟨a, b, h1, h2, h3, h4, h5⟩ | ⟨h3, h4⟩
  · exact Or.inr (Or.inl ⟨s.pos, by rw [hpl, h1]; rfl, h2, hnb⟩)
  · exact Or.inr (Or.inr (Or.inl ⟨a, s.pos, by rw [hpl, h1]; rfl, h2, h3, hnb, hne⟩))
  · refine Or.inr (Or.inr (Or.inr ⟨?_, ?_⟩))
    · rw [hpl, h1]
      have hab : ¬ SameOn n a b := fun h => h3 (blank_congr (SameOn.symm h) h2)
      have has : ¬ SameOn n a s.pos := fun h => h4 (blank_congr (SameOn.symm h) h2)
      show 3 ≤ (Spec.firsts n ([] ++ [a] ++ [b] ++ [s.pos])).length
      have e1 : Spec.firsts n ([] ++ [a]) = [a] := by
        rw [firsts_append, if_neg (by rintro ⟨q, hq, _⟩; cases hq)]; rfl
      have e2 : Spec.firsts n ([] ++ [a] ++ [b]) = [a, b] := by
        rw [firsts_append, e1, if_neg (by rintro ⟨q, hq, h⟩; rw [List.mem_singleton.1 hq] at h; exact hab h)]; rfl
      rw [firsts_append, e2, if_neg]
      · simp
      · rintro ⟨q, hq, h⟩
        simp only [List.mem_cons, List.not_mem_nil, or_false] at hq
        rcases hq with rfl | rfl
        · exact has h
        · exact h5 h
    · have := room_last (n := n) (Spec.apply n f s (.play p)).played (Spec.apply n f s (.play p)).pos
      have hl : (Spec.apply n f s (.play p)).played.length = 3 := by rw [hpl, h1]; rfl
      omega
  · refine Or.inr (Or.inr (Or.inr ⟨by rw [hpl]; exact Nat.le_trans h3 (firsts_length_append _ _), ?_⟩))
    have := progress_play hsu hp he h3 (fun hc => (answerSeen_ok ha).2 ⟨hsk, hc⟩)
    have hl : (Spec.apply n f s (.play p)).played.length = s.played.length + 1 := by rw [hpl]; simp
    omega

theorem FromEmpty.length (h : FromEmpty n s) : s.played.length ≤ 3 + superKoLife n := by
  rcases h with ⟨h1, _⟩ | ⟨a, h1, _⟩ | ⟨a, b, h1, _⟩ | ⟨_, h4⟩
  · rw [h1]; exact Nat.zero_le _
  · rw [h1, List.length_singleton]; omega
  · rw [h1, List.length_cons, List.length_singleton]; omega
  · have := room_le (n := n) (s.played ++ [s.pos])
    unfold superKoLife; omega

/-- **C58**. A game started on an empty board under a rule that forbids super-ko and suicide accepts at most
`A·3^(A-1) + 3` stones (`A` the number of points), whatever passes, refused moves, resumptions and resignations come in between. -/
theorem C58_from_empty {g0 : Game} {m0 : Nat} (hf : Fresh dbg n m0 g0) (hb : Bare n g0.goban.view)
    (hsu : g0.rule.flagIllegal.suicide = true) (hsk : g0.rule.flagIllegal.superko = true)
    {cs : List GOp} (hcs : ∀ c ∈ cs, c.OnBoard n) {es : List (Option PlayError)} (e : g0.run dbg cs = .ok (es, g)) :
    stonesAccepted cs es ≤ n.area * 3 ^ (n.area - 1) + 3 := by
  have hd : NoDead n g0.goban.view := fun p hp hne => absurd (hb p hp) hne
  obtain ⟨s', _, _, _, hk', hl⟩ := Sim.run_keeps (dbg := dbg) (f := g0.rule.flagIllegal.forbidden) (K := FromEmpty n)
    (by
      intro s s' h1 h2 h
      unfold FromEmpty at h ⊢
      rw [h1, h2]; exact h)
    (fun s p hp he ha h => h.play hsu hsk hp he ha) cs (hf.sim hd) (Nat.zero_le _) rfl (Or.inl ⟨rfl, hb⟩) hcs e
  have h0 : (State.start g0.goban.view g0.turn).played.length = 0 := rfl
  have := hk'.length
  unfold superKoLife at this
  omega

/-- A run that keeps a property bounding the stones never panics and never fills the group table. -/
theorem Sim.run_bounded {f : Spec.Forbidden} {K : State → Prop} {B m0 : Nat} (hB : m0 + B < 65535)
    (hK : ∀ s s' : State, s'.pos = s.pos → s'.played = s.played → K s → K s')
    (hplay : ∀ (s : State) p, OnBoard n p → s.pos p = none → Spec.answerSeen n f s (.play p) = .ok → K s → K (Spec.apply n f s (.play p)))
    (hlen : ∀ s, K s → s.played.length ≤ B) :
    ∀ (cs : List GOp) {g : Game} {s : State}, Sim dbg n (m0 + s.played.length) o g s → s.passes ≤ 2 →
      g.rule.flagIllegal.forbidden = f → K s → (∀ c ∈ cs, c.OnBoard n) → ∃ r, g.run dbg cs = .ok r ∧ ¬ r.2.Full
  | [], g, s, h, _, _, hk, _ => ⟨_, rfl, h.notFull (by have := hlen s hk; omega)⟩
  | c :: cs, g, s, h, hp, hf, hk, hon => by
    have hl := hlen s hk
    obtain ⟨r, e, hr, m1, s1, h1, hp1, hcase⟩ := (h.call_stone (dbg := dbg) c (hon c (by simp)) hp).total (h.notFull (by omega))
    have hk1 : K s1 ∧ m1 = m0 + s1.played.length := by
      rcases hcase with ⟨a, b, hm, _⟩ | ⟨_, _, hm, p, a, b, c, d⟩
      · exact ⟨hK s s1 a b hk, by rw [b, hm]⟩
      · refine ⟨by rw [d, hf]; exact hplay s p a b (by rw [← hf]; exact c) hk, ?_⟩
        rw [d, hm]
        show _ = m0 + (s.played ++ [s.pos]).length
        rw [List.length_append, List.length_singleton]; omega
    obtain ⟨rs, e2, hnf⟩ := Sim.run_bounded hB hK hplay hlen cs (g := r.2) (by rw [← hk1.2]; exact h1) hp1 (by rw [hr]; exact hf) hk1.1
      (fun c hc => hon c (by simp [hc]))
    refine ⟨(r.1 :: rs.1, rs.2), ?_, hnf⟩
    unfold Game.run
    rw [e, ok_bind, e2]; rfl

theorem small_run {g0 : Game} {m0 : Nat} (hf : Fresh dbg n m0 g0) (hb : Bare n g0.goban.view) (hn : n.area ≤ 9)
    (hsu : g0.rule.flagIllegal.suicide = true) (hsk : g0.rule.flagIllegal.superko = true) (hm0 : m0 ≤ 6000)
    {cs : List GOp} (hcs : ∀ c ∈ cs, c.OnBoard n) : ∃ r, g0.run dbg cs = .ok r ∧ ¬ r.2.Full := by
  have hd : NoDead n g0.goban.view := fun p hp hne => absurd (hb p hp) hne
  have hB : superKoLife n ≤ 59049 := by
    unfold superKoLife
    exact Nat.mul_le_mul hn (Nat.pow_le_pow_right (by decide) (by omega : n.area - 1 ≤ 8))
  exact Sim.run_bounded (dbg := dbg) (f := g0.rule.flagIllegal.forbidden) (K := FromEmpty n) (B := 3 + superKoLife n) (m0 := m0)
    (by omega)
    (by
      intro s s' h1 h2 h
      unfold FromEmpty at h ⊢
      rw [h1, h2]; exact h)
    (fun s p hp he ha h => h.play hsu hsk hp he ha) (fun s h => h.length) cs
    (s := State.start g0.goban.view g0.turn) (hf.sim hd) (Nat.zero_le _) rfl (Or.inl ⟨rfl, hb⟩) hcs

/-- **C58**, consequence: on boards of at most nine points (up to 3 × 3, and for example 4 × 2 and 9 × 1)
such a game never panics, however long (compare `C27_false`, where the 2 × 2 board under the Japanese rule does). -/
theorem C58_never_panics {g0 : Game} {m0 : Nat} (hf : Fresh dbg n m0 g0) (hb : Bare n g0.goban.view) (hn : n.area ≤ 9)
    (hsu : g0.rule.flagIllegal.suicide = true) (hsk : g0.rule.flagIllegal.superko = true) (hm0 : m0 ≤ 6000)
    {cs : List GOp} (hcs : ∀ c ∈ cs, c.OnBoard n) : ∃ r, g0.run dbg cs = .ok r := by
  obtain ⟨r, e, _⟩ := small_run hf hb hn hsu hsk hm0 hcs
  exact ⟨r, e⟩

/-- Non-vacuity of C58, under the Chinese rule: in the game of `C27_false` the last stone of the cycle is refused, so that the
cycle is not closed. -/
example : okAnd (do
    let g0 ← Game.new (.custom 2 2) CHINESE
    let a ← g0.run true exPrefix
    let b ← a.2.run true exCycle
    .ok (g0, a, b)) (fun r => decide (Bare 2 r.1.goban.view) && decide (3 ≤ r.2.2.2.history.length) &&
      decide (stonesAccepted exCycle r.2.2.1 = 3) && r.2.2.1.any (fun e => decide (e = some .ko))) = true := by decide +kernel

/-- **C58**, why suicide has to be forbidden: on the 1 × 1 board with super-ko forbidden but suicide allowed eleven stones in a
row are accepted, where the bound allows four. -/
theorem C58_suicide_needed (dbg : Bool) : ∃ g0, Fresh dbg 1 0 g0 ∧ Bare 1 g0.goban.view ∧ g0.rule.flagIllegal.superko = true ∧
    ∃ cs es g, (∀ c ∈ cs, c.OnBoard 1) ∧ g0.run dbg cs = .ok (es, g) ∧
      ¬ stonesAccepted cs es ≤ 1 * 3 ^ (1 - 1) + 3 := by
  have key : okAnd (do
      let g0 ← Game.new (.custom 1 1) { CHINESE with flagIllegal := { CHINESE.flagIllegal with suicide := false } }
      let a ← g0.run dbg (List.replicate 11 (.try_ (.play 0 0)))
      .ok (g0, a)) (fun r => decide (Bare 1 r.1.goban.view) && r.1.rule.flagIllegal.superko &&
        decide (stonesAccepted (List.replicate 11 (.try_ (.play 0 0))) r.2.1 = 11)) = true := by
    cases dbg <;> decide +kernel
  obtain ⟨r, e, hr⟩ := okAnd_iff.1 key
  obtain ⟨g0, e0, e⟩ := bind_eq_ok e
  obtain ⟨⟨es, g⟩, e1, e⟩ := bind_eq_ok e
  cases e
  simp only [Bool.and_eq_true, decide_eq_true_eq] at hr
  refine ⟨g0, new_fresh (by decide) e0, hr.1.1, hr.1.2, _, es, g, ?_, e1, by omega⟩
  intro c hc
  rw [List.eq_of_mem_replicate hc]
  decide

end Model
