import Verif.Props.Bench
/-!
# The first three plies: values of `perft` (C73)
-/

namespace Model
open Spec (OnBoard Adj Linked HasLiberty NoDead place SameOn Pos Suicide State removeDead)

variable {dbg : Bool} {m : Nat} {g : Game} {n : Dim} {s : State} {k : Nat}

theorem two_neighbours (hh : 2 ≤ n.h) (hw : 2 ≤ n.w) {p : Coord} (hp : OnBoard n p) :
    ∃ u v, Adj p u ∧ OnBoard n u ∧ Adj p v ∧ OnBoard n v ∧ u ≠ v := by
  obtain ⟨a, b⟩ := p
  obtain ⟨ha, hb⟩ := hp
  dsimp only at ha hb
  have hu : ∃ a', (a + 1 = a' ∨ a' + 1 = a) ∧ a' < n.h := by
    by_cases h0 : a = 0
    · exact ⟨1, by omega, by omega⟩
    · exact ⟨a - 1, by omega, by omega⟩
  have hv : ∃ b', (b + 1 = b' ∨ b' + 1 = b) ∧ b' < n.w := by
    by_cases h0 : b = 0
    · exact ⟨1, by omega, by omega⟩
    · exact ⟨b - 1, by omega, by omega⟩
  obtain ⟨a', h1, h2⟩ := hu
  obtain ⟨b', h3, h4⟩ := hv
  refine ⟨(a', b), (a, b'), Or.inr ⟨rfl, h1⟩, ⟨h2, hb⟩, Or.inl ⟨rfl, h3⟩, ⟨ha, h4⟩, ?_⟩
  intro h
  have : a' = a := congrArg Prod.fst h
  omega

/-- A game with `k` stones played, at most one of each colour on the board, and nothing captured. -/
structure Early (n : Dim) (k : Nat) (s : State) : Prop where
  count : Spec.count n s.pos none + k = n.area
  one : ∀ p q, OnBoard n p → OnBoard n q → s.pos p ≠ none → s.pos p = s.pos q → p = q
  own : k < 2 → ∀ p, OnBoard n p → s.pos p ≠ some s.turn
  before : ∀ b, s.before = some b → ∀ q, OnBoard n q → b q ≠ none → s.pos q ≠ none
  played : s.played.length = k

theorem firsts_le (n : Dim) (l : List Pos) : (Spec.firsts n l).length ≤ l.length := by
  suffices h : ∀ (l : List Pos), (Spec.firsts n l.reverse).length ≤ l.reverse.length by
    have := h l.reverse
    rwa [List.reverse_reverse] at this
  intro l
  induction l with
  | nil => exact Nat.le_refl _
  | cons a l ih =>
    rw [List.reverse_cons, firsts_append, List.length_append]
    split
    · omega
    · rw [List.length_append]; simp only [List.length_singleton]; omega

/-- With at most one stone of each colour, a stone has an empty neighbour. -/
theorem sparse_liberty (hh : 2 ≤ n.h) (hw : 2 ≤ n.w) {pos : Pos}
    (one : ∀ p q, OnBoard n p → OnBoard n q → pos p ≠ none → pos p = pos q → p = q) {p : Coord} (hp : OnBoard n p)
    (hv : pos p ≠ none) : ∃ r, Adj p r ∧ OnBoard n r ∧ pos r = none := by
  obtain ⟨u, v, hu, hu', hv1, hv', huv⟩ := two_neighbours hh hw hp
  by_cases h1 : pos u = none
  · exact ⟨u, hu, hu', h1⟩
  by_cases h2 : pos v = none
  · exact ⟨v, hv1, hv', h2⟩
  exfalso
  have hpu : p ≠ u := by rintro rfl; unfold Adj at hu; omega
  have hpv : p ≠ v := by rintro rfl; unfold Adj at hv1; omega
  have a1 : pos p ≠ pos u := fun h => hpu (one _ _ hp hu' hv h)
  have a2 : pos p ≠ pos v := fun h => hpv (one _ _ hp hv' hv h)
  have a3 : pos u ≠ pos v := fun h => huv (one _ _ hu' hv' h1 h)
  revert a1 a2 a3
  cases h3 : pos p with
  | none => exact absurd h3 hv
  | some a =>
    cases h4 : pos u with
    | none => exact absurd h4 h1
    | some b =>
      cases h5 : pos v with
      | none => exact absurd h5 h2
      | some c => cases a <;> cases b <;> cases c <;> simp

theorem sparse_noDead (hh : 2 ≤ n.h) (hw : 2 ≤ n.w) {pos : Pos}
    (one : ∀ p q, OnBoard n p → OnBoard n q → pos p ≠ none → pos p = pos q → p = q) : NoDead n pos := by
  intro p hp hv
  obtain ⟨r, h1, h2, h3⟩ := sparse_liberty hh hw one hp hv
  exact ⟨p, r, Linked.refl _, h1, h2, h3⟩

theorem Early.accepts (h : Early n k s) (hk : k ≤ 2) (hh : 2 ≤ n.h) (hw : 2 ≤ n.w) {o : Option EndGame}
    (hs : Sim dbg n m o g s) (hps : s.passes ≠ 2) {p : Coord} (hp : OnBoard n p) (he : s.pos p = none) (f : Spec.Forbidden) :
    Spec.answerSeen n f s (.play p) = .ok := by
  have hsk : ¬ Spec.SuperKoSeen n (!f.suicide) s p := by
    rintro ⟨h1, _⟩
    have := firsts_le n s.played
    rw [h.played] at this; omega
  obtain ⟨u, v, hu, hu', hv, hv', huv⟩ := two_neighbours hh hw hp
  by_cases h1 : s.pos u = none
  · exact hs.quiet hps hp he hu hu' h1 f (fun _ => hsk)
  by_cases h2 : s.pos v = none
  · exact hs.quiet hps hp he hv hv' h2 f (fun _ => hsk)
  have hne : s.pos u ≠ s.pos v := fun h' => huv (h.one _ _ hu' hv' h1 h')
  -- one of the two is an own stone, and it has a liberty elsewhere
  have own : ∃ q t, Adj p q ∧ OnBoard n q ∧ Adj p t ∧ OnBoard n t ∧ s.pos q = some s.turn ∧ s.pos t = some s.turn.opp := by
    cases h3 : s.pos u with
    | none => exact absurd h3 h1
    | some a =>
      cases h4 : s.pos v with
      | none => exact absurd h4 h2
      | some b =>
        rw [h3, h4] at hne
        by_cases ha : a = s.turn
        · refine ⟨u, v, hu, hu', hv, hv', by rw [h3, ha], ?_⟩
          rw [h4]; subst ha
          generalize s.turn = x at *
          cases x <;> cases b <;> simp_all [Color.opp]
        · refine ⟨v, u, hv, hv', hu, hu', ?_, ?_⟩
          · rw [h4]
            generalize s.turn = x at *
            cases x <;> cases a <;> cases b <;> simp_all
          · rw [h3]
            generalize s.turn = x at *
            cases x <;> cases a <;> simp_all [Color.opp]
  obtain ⟨q, t, hq, hq', ht, ht', hqc, htc⟩ := own
  have hlib : ∃ r, LibAt n s.pos q r ∧ r ≠ p := by
    obtain ⟨u, v, hu, hu', hv, hv', huv⟩ := two_neighbours hh hw hq'
    have key : ∀ r, Adj q r → OnBoard n r → r ≠ p → s.pos r = none := by
      intro r hr hr' hrp
      refine Classical.byContradiction fun hne => ?_
      have hqr : q ≠ r := by rintro rfl; unfold Adj at hr; omega
      have htr : t ≠ r := by
        rintro rfl
        unfold Adj at hq ht hr; omega
      have a1 : s.pos q ≠ s.pos r := fun h' => hqr (h.one _ _ hq' hr' (by rw [hqc]; simp) h')
      have a2 : s.pos t ≠ s.pos r := fun h' => htr (h.one _ _ ht' hr' (by rw [htc]; simp) h')
      rw [hqc] at a1
      rw [htc] at a2
      cases h5 : s.pos r with
      | none => exact hne h5
      | some c =>
        rw [h5] at a1 a2
        generalize s.turn = x at *
        cases x <;> cases c <;> simp_all [Color.opp]
    by_cases hup : u = p
    · exact ⟨v, ⟨hv', key v hv hv' (by rw [← hup]; exact huv.symm), q, Linked.refl _, hv⟩, by rw [← hup]; exact huv.symm⟩
    · exact ⟨u, ⟨hu', key u hu hu' hup, q, Linked.refl _, hu⟩, hup⟩
  obtain ⟨r, hr, hrp⟩ := hlib
  unfold Spec.answerSeen
  dsimp only
  rw [if_neg hps, if_neg (by simp [he]), if_neg, if_neg, if_neg, if_neg]
  · rintro ⟨_, h3⟩; exact hsk h3
  · rintro ⟨_, _, h3, _⟩
    have := h3 t ht ht'
    rw [htc] at this
    exact Color.ne_opp _ (Option.some.inj this).symm
  · rintro ⟨_, ⟨b, hb, h3⟩, _⟩
    have := (h3 p hp).2 rfl
    exact h.before b hb p hp (by rw [this.1]; simp) he
  · rintro ⟨_, h3⟩
    exact (suicide_local hs.noDead hp he).2 (Or.inr (Or.inl ⟨q, r, hq, hq', hqc, hr, hrp⟩)) h3

theorem count_none_place {pos : Pos} {p : Coord} {c : Color} (hp : OnBoard n p) (he : pos p = none) :
    Spec.count n (place pos p c) none + 1 = Spec.count n pos none := by
  have hsum : ∀ P : Pos, Spec.count n P none + stoneCount n P = n.area := by
    intro P
    unfold stoneCount Spec.count
    rw [← points_length]
    induction Spec.points n with
    | nil => rfl
    | cons a l ih =>
      simp only [List.filter_cons, List.length_cons]
      cases hc : P a with
      | none => simp at ih ⊢; omega
      | some c => cases c <;> simp at ih ⊢ <;> omega
  have h1 := count_place (c := c) hp he .black
  have h2 := count_place (c := c) hp he .white
  have h3 := hsum pos
  have h4 := hsum (place pos p c)
  unfold stoneCount at h3 h4
  rw [h1, h2] at h4
  cases c <;> simp at h4 <;> omega

theorem Early.next (h : Early n k s) (hk : k < 2) (hh : 2 ≤ n.h) (hw : 2 ≤ n.w) {p : Coord} (hp : OnBoard n p)
    (he : s.pos p = none) (f : Spec.Forbidden) : Early n (k + 1) (Spec.apply n f s (.play p)) := by
  have hone : ∀ a b, OnBoard n a → OnBoard n b → place s.pos p s.turn a ≠ none →
      place s.pos p s.turn a = place s.pos p s.turn b → a = b := by
    intro a b ha hb hne hab
    by_cases h1 : a = p
    · by_cases h2 : b = p
      · rw [h1, h2]
      · rw [h1, place_self, place_ne h2] at hab
        exact absurd hab.symm (h.own hk b hb)
    · by_cases h2 : b = p
      · rw [h2, place_self, place_ne h1] at hab
        exact absurd hab (h.own hk a ha)
      · rw [place_ne h1] at hne hab
        rw [place_ne h2] at hab
        exact h.one a b ha hb hne hab
  have hd := sparse_noDead hh hw hone
  have hafter : SameOn n (Spec.play n (!f.suicide) s.pos p s.turn) (place s.pos p s.turn) := by
    unfold Spec.play
    dsimp only
    split
    · exact SameOn.trans (removeDead_congr (removeDead_noDead hd _) _) (removeDead_noDead hd _)
    · exact removeDead_noDead hd _
  refine ⟨?_, ?_, ?_, ?_, ?_⟩
  · show Spec.count n (Spec.play n (!f.suicide) s.pos p s.turn) none + (k + 1) = _
    rw [count_congr hafter]
    have := count_none_place (c := s.turn) hp he
    have := h.count
    omega
  · intro a b ha hb
    show Spec.play n (!f.suicide) s.pos p s.turn a ≠ none → Spec.play n (!f.suicide) s.pos p s.turn a = Spec.play n (!f.suicide) s.pos p s.turn b → _
    rw [hafter a ha, hafter b hb]
    exact hone a b ha hb
  · intro hk1 a ha
    show Spec.play n (!f.suicide) s.pos p s.turn a ≠ some s.turn.opp
    rw [hafter a ha]
    by_cases hap : a = p
    · rw [hap, place_self]; intro h'; exact Color.ne_opp _ (Option.some.inj h')
    · rw [place_ne hap]
      have hk0 : k = 0 := by omega
      have hc := h.count
      rw [hk0, Nat.add_zero] at hc
      unfold Spec.count at hc
      rw [← points_length, List.length_filter_eq_length_iff] at hc
      have := hc a (mem_points.2 ha)
      rw [decide_eq_true_eq] at this
      rw [this]; simp
  · intro b hb q hq hne
    cases hb
    show Spec.play n (!f.suicide) s.pos p s.turn q ≠ none
    rw [hafter q hq]
    by_cases hqp : q = p
    · rw [hqp, place_self]; simp
    · rw [place_ne hqp]; exact hne
  · show (s.played ++ [s.pos]).length = _
    rw [List.length_append, h.played]; rfl

/-- `a (a - 1) ⋯`, `d` factors. -/
def falling (a : Nat) : Nat → Nat
  | 0 => 1
  | d + 1 => a * falling (a - 1) d

theorem sum_const {α} (l : List α) (f : α → Nat) (c : Nat) (h : ∀ a ∈ l, f a = c) : (l.map f).sum = l.length * c := by
  induction l with
  | nil => simp
  | cons a l ih =>
    rw [List.map_cons, List.sum_cons, h a (by simp), ih (fun x hx => h x (by simp [hx])), List.length_cons, Nat.add_mul]
    omega

open Classical in
theorem countGames_early (hh : 2 ≤ n.h) (hw : 2 ≤ n.w) : ∀ (d k m : Nat) (g : Game) (o : Option EndGame) (s : State),
    Sim dbg n m o g s → Early n k s → s.passes ≤ 1 → m ≤ k → k + d ≤ 3 → countGames dbg n g d = falling (n.area - k) d
  | 0, k, m, g, o, s, _, _, _, _, _ => countGames_zero
  | d + 1, k, m, g, o, s, hs, h, hps, hm, hk => by
    rw [countGames_succ]
    have hacc : ∀ p, OnBoard n p → (g.Accepts dbg p ↔ s.pos p = none) := by
      intro p hp
      obtain ⟨⟨e, g'⟩, e1, h1⟩ := (hs.tryPlay_answer (dbg := dbg) (.play p.1 p.2) hp (by omega)).total (hs.notFull (by omega))
      have h1 : toAnswer e = Spec.answerSeen n g.rule.flagIllegal.forbidden s (.play p) := h1
      constructor
      · rintro ⟨g2, e2⟩
        rw [e1] at e2; cases e2
        refine Classical.byContradiction fun hne => ?_
        unfold Spec.answerSeen at h1
        dsimp only at h1
        rw [if_neg (by omega), if_pos hne] at h1
        cases h1
      · intro he
        rw [h.accepts (by omega) hh hw hs (by omega) hp he] at h1
        cases e with
        | none => exact ⟨g', e1⟩
        | some e => cases e <;> cases h1
    have hlist : (Spec.points n).filter (fun p => decide (g.Accepts dbg p)) = (Spec.points n).filter (fun p => decide (s.pos p = none)) := by
      apply filter_congr'
      intro p hp
      rw [Bool.eq_iff_iff, decide_eq_true_eq, decide_eq_true_eq]
      exact hacc p (mem_points.1 hp)
    have hlen : ((Spec.points n).filter (fun p => decide (s.pos p = none))).length = n.area - k := by
      have := h.count
      unfold Spec.count at this
      have h2 : ((Spec.points n).filter (fun p => decide (s.pos p = none))).length + k = n.area := by
        rw [← this]
      omega
    rw [hlist]
    have hconst : ∀ p ∈ (Spec.points n).filter (fun p => decide (s.pos p = none)),
        countGames dbg n (g.child dbg p) d = falling (n.area - k - 1) d := by
      intro p hp
      rw [List.mem_filter, decide_eq_true_eq] at hp
      obtain ⟨hp, he⟩ := hp
      have hp := mem_points.1 hp
      obtain ⟨g', e⟩ := (hacc p hp).2 he
      rw [child_eq e]
      cases d with
      | zero => exact countGames_zero
      | succ d =>
        obtain ⟨_, _, hok⟩ := (hs.tryPlay_any (.play p.1 p.2) hp (by omega)).of_ok e
        obtain ⟨_, _, m', hm', hs'⟩ := hok rfl
        have := countGames_early hh hw (d + 1) (k + 1) m' g' o _ hs' (h.next (by omega) hh hw hp he _) (Nat.zero_le _) (by omega) (by omega)
        rw [this]; rfl
    rw [sum_const _ _ _ hconst, hlen]
    rfl

/-- A game has at most as many continuations of `d` stones as there are sequences of `d` points. -/
theorem countGames_le {n : Dim} : ∀ (d : Nat) (g : Game), countGames dbg n g d ≤ n.area ^ d
  | 0, g => by rw [countGames_zero]; exact Nat.le_refl _
  | d + 1, g => by
    rw [countGames_succ, Nat.pow_succ, Nat.mul_comm, ← points_length]
    have h1 : ∀ l : List Coord, (l.map (fun p => countGames dbg n (g.child dbg p) d)).sum ≤ l.length * n.area ^ d := by
      intro l
      induction l with
      | nil => simp
      | cons a l ih =>
        rw [List.map_cons, List.sum_cons, List.length_cons, Nat.succ_mul, Nat.add_comm]
        exact Nat.add_le_add ih (countGames_le d _)
    rw [points_length]
    refine Nat.le_trans (h1 _) (Nat.mul_le_mul_right _ ?_)
    rw [← points_length]
    exact List.length_filter_le _ _

/-- **C73**, no overflow up to seven plies: on every square board, in every legal game that is not paused, `perft` of depth at most 7
returns the number of sequences itself, in both build profiles. -/
theorem C73_seven {n : Nat} {d : Nat} (hd : d ≤ 7) {m : Nat} {g : Game} (h : Legal dbg n m g) (hps : g.passes ≠ 2) (hm : m + d ≤ 65535) :
    Game.perft dbg d g = .ok (countGames dbg n g d) := by
  rw [C73_perft d h hps hm]
  unfold inU64
  obtain ⟨_, _, hr⟩ := h.reach
  have hn : Dim.area (n : Dim) ≤ 361 := sq_le hr.inv.good
  rw [if_pos]
  have h1 := countGames_le (dbg := dbg) (n := n) d g
  have h2 : Dim.area (n : Dim) ^ d ≤ 361 ^ d := Nat.pow_le_pow_left hn d
  have h3 : (361 : Nat) ^ d ≤ 361 ^ 7 := Nat.pow_le_pow_right (by decide) hd
  have h4 : (361 : Nat) ^ 7 < 2 ^ 64 := by decide
  omega

/-- **C73**, the first three plies. From a new game on a square board of side at least 2, under every rule, `perft` counts
`a` games of one ply, `a (a - 1)` of two and `a (a - 1) (a - 2)` of three, `a` the number of points. -/
theorem C73_first_plies {n : Nat} {size : GobanSizes} {rule : Rule} {g0 : Game} (hn : 2 ≤ n) (hsize : size.toSize = (n, n))
    (e : Game.new size rule = .ok g0) : Game.perft dbg 1 g0 = .ok (n * n) ∧
      Game.perft dbg 2 g0 = .ok (n * n * (n * n - 1)) ∧ Game.perft dbg 3 g0 = .ok (n * n * ((n * n - 1) * (n * n - 2))) := by
  have hf : Fresh dbg n 0 g0 := .new (Nat.dvd_refl _) hsize e
  have hinv := (Reach.fresh hf).inv
  have hview : SameOn n g0.goban.view (fun _ => none) := by
    unfold Game.new at e
    obtain ⟨b, eb, e⟩ := bind_eq_ok e
    cases e
    exact new_view (Nat.dvd_refl _) (by rw [hsize] at eb; exact eb)
  have hd : NoDead n g0.goban.view := fun p hp hne => absurd (hview p hp) hne
  have hs := hf.sim hd
  have hE : Early n 0 (State.start g0.goban.view g0.turn) := by
    refine ⟨?_, ?_, ?_, ?_, rfl⟩
    · show Spec.count n g0.goban.view none + 0 = _
      unfold Spec.count
      rw [Nat.add_zero, ← points_length, List.length_filter_eq_length_iff]
      intro p hp
      rw [decide_eq_true_eq]; exact hview p (mem_points.1 hp)
    · intro p q hp _ hne; exact absurd (hview p hp) hne
    · intro _ p hp h'
      have := hview p hp
      rw [show g0.goban.view p = some g0.turn from h'] at this
      cases this
    · intro b hb; cases hb
  have hps : g0.passes ≠ 2 := by rw [hs.passes]; show (0 : Nat) ≠ 2; decide
  have hn19 : n * n ≤ 361 := sq_le hinv.good
  have key : ∀ d ≤ 3, Game.perft dbg d g0 = inU64 dbg (falling (n * n) d) := by
    intro d hd3
    rw [C73_perft d (.fresh hf hd) hps (by omega)]
    rw [countGames_early (n := n) hn hn d 0 0 g0 _ _ hs hE (Nat.zero_le _) (Nat.le_refl _) (by omega)]
    rfl
  have hfit : ∀ x, x ≤ 361 * 361 * 361 → inU64 dbg x = .ok x := by
    intro x hx
    unfold inU64
    rw [if_pos]
    have : 361 * 361 * 361 < 2 ^ 64 := by decide
    omega
  have b1 : n * n - 1 ≤ 361 := by omega
  have b2 : n * n - 2 ≤ 361 := by omega
  have p2 : n * n * (n * n - 1) ≤ 361 * 361 := Nat.mul_le_mul hn19 b1
  have p3 : n * n * ((n * n - 1) * (n * n - 2)) ≤ 361 * (361 * 361) := Nat.mul_le_mul hn19 (Nat.mul_le_mul b1 b2)
  refine ⟨?_, ?_, ?_⟩
  · rw [key 1 (by decide)]
    show inU64 dbg (n * n * 1) = _
    rw [Nat.mul_one, hfit _ (by omega)]
  · rw [key 2 (by decide)]
    show inU64 dbg (n * n * ((n * n - 1) * 1)) = _
    rw [Nat.mul_one, hfit _ (by omega)]
  · rw [key 3 (by decide)]
    show inU64 dbg (n * n * ((n * n - 1) * ((n * n - 1 - 1) * 1))) = _
    rw [Nat.mul_one, Nat.sub_sub, hfit _ (by omega)]

/-- What the benchmark `perft_4` computes: 46,655,640. -/
theorem C73_benchmark : ∃ g0, Game.new .nineteen CHINESE = .ok g0 ∧ Game.perft dbg 3 g0 = .ok 46655640 := by
  obtain ⟨g0, e⟩ : ∃ g0, Game.new .nineteen CHINESE = .ok g0 := ⟨_, rfl⟩
  exact ⟨g0, e, (C73_first_plies (n := 19) (by decide) rfl e).2.2⟩

/-- Three is the limit: on the 2 × 2 board the fourth ply depends on the rule (the formula would give `4 * 3 * 2 * 1`). -/
example : okAnd (do
    let g0 ← Game.new (.custom 2 2) JAPANESE
    let g1 ← Game.new (.custom 2 2) { JAPANESE with flagIllegal := { ko := false, superko := false, suicide := false, fillEye := false } }
    let a ← Game.perft true 4 g0
    let b ← Game.perft true 4 g1
    .ok (a, b)) (fun r => r == (16, 32)) = true := by decide +kernel

end Model
