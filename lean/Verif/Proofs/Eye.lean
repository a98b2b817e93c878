import Verif.Proofs.Congr
/-!
# `check_eye` recognises exactly the shapes of `Spec.Eye`
-/

namespace Model
open Spec (OnBoard Adj Linked HasLiberty NoDead place SameOn Pos)

/-- The four candidates of `corner_points`, with the wrap-around of `u8`. -/
def rawCorners (p : Coord) : List Coord :=
  [(p.1 + 1, p.2 + 1), (wsub1 p.1, wsub1 p.2), (p.1 + 1, wsub1 p.2), (wsub1 p.1, p.2 + 1)]

theorem cornerPoints_ok {dbg : Bool} {n : Dim} {p : Coord} (hn : n.Good) (hp : OnBoard n p) :
    cornerPoints dbg p = .ok (rawCorners p) := by
  have h1 := hp.1
  have h2 := hp.2
  have h3 := onBoard_w19 hn hp
  unfold cornerPoints addU8
  rw [if_pos (by omega), if_pos (by omega)]
  rfl

theorem wsub1_zero : wsub1 0 = 255 := rfl
theorem wsub1_succ {x : Nat} (h1 : 1 ≤ x) (h2 : x < 19) : wsub1 x = x - 1 := by unfold wsub1; omega

theorem rawCorners_filter {n : Dim} {p : Coord} (hn : n.Good) (hp : OnBoard n p) :
    (rawCorners p).filter (isCoordValid n.sz) = Spec.corners n p := by
  obtain ⟨x, y⟩ := p
  have h1 : x < n.h := hp.1
  have h2 : y < n.w := hp.2
  have h3 := onBoard_w19 hn hp
  have hv : isCoordValid n.sz = fun q => decide (OnBoard n q) := by
    funext q
    rw [Bool.eq_iff_iff, isCoordValid_iff, decide_eq_true_eq]
  rw [hv]
  unfold rawCorners Spec.corners Spec.diagonals
  have hb : ∀ z, ¬ OnBoard n (255, z) := fun z h => by have h' : 255 < n.h := h.1; omega
  have hb2 : ∀ z, ¬ OnBoard n (z, 255) := fun z h => by have h' : 255 < n.w := h.2; omega
  rcases Nat.eq_zero_or_pos x with rfl | hx <;> rcases Nat.eq_zero_or_pos y with rfl | hy
  · simp [wsub1_zero, hb, hb2, List.filter_cons]
  · have hy' : ¬ y = 0 := by omega
    simp [wsub1_zero, hb, wsub1_succ hy (by omega), List.filter_cons, Nat.one_le_iff_ne_zero, hy']
  · have hx' : ¬ x = 0 := by omega
    simp [wsub1_zero, hb2, wsub1_succ hx (by omega), List.filter_cons, Nat.one_le_iff_ne_zero, hx']
  · have hx' : ¬ x = 0 := by omega
    have hy' : ¬ y = 0 := by omega
    simp [wsub1_succ hx (by omega), wsub1_succ hy (by omega), List.filter_cons, Nat.one_le_iff_ne_zero, hx', hy']

theorem eyeStep_ok {n : Dim} {g : Game} {c : Color} (h : Inv n g.goban) (acc : List Coord × List Coord × List Coord) (q : Coord) :
    g.eyeStep c acc q = .ok (if isCoordValid n.sz q = true then
      (if g.goban.view q = none then (acc.1, acc.2.1, acc.2.2 ++ [q])
       else if g.goban.view q = some c then (acc.1 ++ [q], acc.2.1, acc.2.2) else acc)
      else (acc.1, acc.2.1 ++ [q], acc.2.2)) := by
  unfold Game.eyeStep
  rw [h.size]
  by_cases hv : isCoordValid n.sz q = true
  · rw [if_pos hv, if_pos hv, h.getColor_view (isCoordValid_iff.1 hv), ok_bind]
    cases hc : g.goban.view q with
    | none => rfl
    | some d =>
      by_cases hd : d = c
      · subst hd; simp
      · simp [hd]
  · rw [if_neg hv, if_neg hv]

theorem eyeFold_ok {n : Dim} {g : Game} {c : Color} (h : Inv n g.goban) : ∀ (l : List Coord) (acc : List Coord × List Coord × List Coord),
    l.foldlM (g.eyeStep c) acc = .ok
      (acc.1 ++ (l.filter (isCoordValid n.sz)).filter (fun q => decide (g.goban.view q = some c)),
       acc.2.1 ++ l.filter (fun q => !isCoordValid n.sz q),
       acc.2.2 ++ (l.filter (isCoordValid n.sz)).filter (fun q => decide (g.goban.view q = none)))
  | [], acc => by simp
  | q :: l, acc => by
    rw [List.foldlM_cons, eyeStep_ok h, ok_bind, eyeFold_ok h l]
    by_cases hv : isCoordValid n.sz q = true
    · rw [if_pos hv, List.filter_cons_of_pos hv, List.filter_cons_of_neg (p := fun q => !isCoordValid n.sz q) (by simp [hv])]
      by_cases h1 : g.goban.view q = none
      · rw [if_pos h1, List.filter_cons_of_neg (by simp [h1]), List.filter_cons_of_pos (by simp [h1])]
        simp
      · rw [if_neg h1]
        by_cases h2 : g.goban.view q = some c
        · rw [if_pos h2, List.filter_cons_of_pos (by simp [h2]), List.filter_cons_of_neg (by simp [h1])]
          simp
        · rw [if_neg h2, List.filter_cons_of_neg (by simp [h2]), List.filter_cons_of_neg (by simp [h1])]
    · rw [if_neg hv, List.filter_cons_of_neg hv, List.filter_cons_of_pos (p := fun q => !isCoordValid n.sz q) (by simpa using hv)]
      simp

theorem filter_length_add {α} (P : α → Bool) : ∀ l : List α, (l.filter P).length + (l.filter (fun a => !P a)).length = l.length
  | [] => rfl
  | a :: l => by
    have := filter_length_add P l
    rw [List.filter_cons, List.filter_cons]
    cases P a <;> simp <;> omega

theorem helperCheckEye_ok {dbg : Bool} {n : Dim} {g : Game} {p : Coord} {c : Color} (h : Inv n g.goban) (hp : OnBoard n p) :
    ∃ ally off, g.helperCheckEye dbg p c = .ok (ally, off, (Spec.corners n p).filter (fun q => g.goban.view q = none)) ∧
      ally.length + off.length = Spec.safeCorners n g.goban.view c p := by
  unfold Game.helperCheckEye
  rw [cornerPoints_ok h.good hp, ok_bind, eyeFold_ok h, rawCorners_filter h.good hp]
  refine ⟨_, _, rfl, ?_⟩
  unfold Spec.safeCorners
  have := filter_length_add (isCoordValid n.sz) (rawCorners p)
  rw [rawCorners_filter h.good hp] at this
  have h4 : (rawCorners p).length = 4 := rfl
  simp only [List.nil_append]
  omega

theorem eyeCorners_ok {dbg : Bool} {n : Dim} {g : Game} {c : Color} (h : Inv n g.goban) : ∀ (l : List Coord), (∀ q ∈ l, OnBoard n q) →
    ∃ b, g.eyeCorners dbg c l = .ok b ∧ (b = true ↔ Spec.Completes n g.goban.view c l)
  | [], _ => ⟨false, rfl, by simp [Spec.Completes]⟩
  | q :: l, hl => by
    have hq := hl q (by simp)
    unfold Game.eyeCorners
    rw [Goban.anyConnectedStone_of (connectedStones_ok h hq), ok_bind]
    have hany : (((adjList n q).filterMap (fun r => (g.goban.view r).map (fun c => ({ coord := r, color := c } : Stone)))).any
        (fun s => decide (s.color ≠ c)) = true) ↔ ¬ ∀ r, Adj q r → OnBoard n r → g.goban.view r ≠ some c.opp := by
      rw [any_iff]
      constructor
      · rintro ⟨s, hs, hne⟩ hall
        obtain ⟨r, hr, hs⟩ := List.mem_filterMap.1 hs
        obtain ⟨d, hd, rfl⟩ := Option.map_eq_some_iff.1 hs
        obtain ⟨hrb, hra⟩ := (mem_adjList h.good hq).1 hr
        rw [decide_eq_true_eq] at hne
        exact hall r hra hrb (by rw [hd]; exact congrArg some (Color.eq_opp_of_ne hne))
      · intro hall
        apply Classical.byContradiction
        intro hno
        apply hall
        intro r hra hrb hv
        apply hno
        refine ⟨{ coord := r, color := c.opp }, List.mem_filterMap.2 ⟨r, (mem_adjList h.good hq).2 ⟨hrb, hra⟩, by rw [hv]; rfl⟩, ?_⟩
        simp
    split
    · rename_i hh
      refine ⟨false, rfl, ?_⟩
      unfold Spec.Completes
      simp only [Bool.false_eq_true, false_iff]
      intro h'
      exact (hany.1 hh) h'.1
    · rename_i hh
      have hall := Classical.not_not.1 (fun h' => hh (hany.2 h'))
      obtain ⟨ally, off, e, hs⟩ := helperCheckEye_ok (dbg := dbg) (c := c) h hq
      rw [e, ok_bind]
      dsimp only
      rw [hs]
      unfold Spec.Completes
      split
      · rename_i h3
        refine ⟨true, rfl, ?_⟩
        simp only [true_iff]
        exact ⟨hall, by rcases h3 with h3 | h3
                        · exact Or.inr (Or.inl h3)
                        · exact Or.inl h3⟩
      · rename_i h3
        obtain ⟨b, e, hb⟩ := eyeCorners_ok (dbg := dbg) (c := c) h l (fun r hr => hl r (by simp [hr]))
        refine ⟨b, e, hb.trans ?_⟩
        constructor
        · intro h'; exact ⟨hall, Or.inr (Or.inr h')⟩
        · rintro ⟨_, h' | h' | h'⟩
          · exact absurd (Or.inr h') h3
          · exact absurd (Or.inl h') h3
          · exact h'

theorem checkEye_ok {dbg : Bool} {n : Dim} {g : Game} {p : Coord} {c : Color} (h : Inv n g.goban) (hp : OnBoard n p) :
    ∃ b, g.checkEye dbg { coord := p, color := c } = .ok b ∧ (b = true ↔ Spec.Eye n g.goban.view c p) := by
  unfold Game.checkEye
  dsimp only
  rw [h.getColor_view hp, ok_bind]
  cases hv : g.goban.view p with
  | some d =>
    refine ⟨false, rfl, ?_⟩
    unfold Spec.Eye
    rw [hv]; simp
  | none =>
    dsimp only [Option.isSome]
    rw [if_neg (by simp), Goban.anyConnectedPoint_of (connectedPoints_ok h hp), ok_bind]
    have hany : (((adjList n p).map (fun q => ({ coord := q, color := g.goban.view q } : Point))).any
        (fun q => decide (q.color ≠ some c)) = true) ↔ ¬ Spec.Surrounded n g.goban.view c p := by
      rw [any_iff]
      constructor
      · rintro ⟨s, hs, hne⟩ hall
        obtain ⟨r, hr, rfl⟩ := List.mem_map.1 hs
        obtain ⟨hrb, hra⟩ := (mem_adjList h.good hp).1 hr
        rw [decide_eq_true_eq] at hne
        exact hne (hall r hra hrb)
      · intro hall
        apply Classical.byContradiction
        intro hno
        apply hall
        intro r hra hrb
        apply Classical.byContradiction
        intro hv
        apply hno
        exact ⟨_, List.mem_map.2 ⟨r, (mem_adjList h.good hp).2 ⟨hrb, hra⟩, rfl⟩, by simpa using hv⟩
    split
    · rename_i hh
      refine ⟨false, rfl, ?_⟩
      unfold Spec.Eye
      simp only [Bool.false_eq_true, false_iff]
      intro h'
      exact (hany.1 hh) h'.2.1
    · rename_i hh
      have hall := Classical.not_not.1 (fun h' => hh (hany.2 h'))
      obtain ⟨ally, off, e, hs⟩ := helperCheckEye_ok (dbg := dbg) (c := c) h hp
      rw [e, ok_bind]
      dsimp only
      rw [hs]
      unfold Spec.Eye
      split
      · rename_i h4
        exact ⟨true, rfl, by simp only [true_iff]; exact ⟨hv, hall, Or.inl h4⟩⟩
      · rename_i h4
        split
        · rename_i h3
          obtain ⟨b, e, hb⟩ := eyeCorners_ok (dbg := dbg) (c := c) h ((Spec.corners n p).filter (fun q => g.goban.view q = none))
            (fun r hr => mem_corners (List.mem_filter.1 hr).1)
          refine ⟨b, e, hb.trans ?_⟩
          constructor
          · intro h'; exact ⟨hv, hall, Or.inr ⟨by rcases h3 with h3 | h3
                                                  · exact Or.inr h3
                                                  · exact Or.inl h3, h'⟩⟩
          · rintro ⟨_, _, h' | ⟨_, h'⟩⟩
            · exact absurd h' h4
            · exact h'
        · rename_i h3
          refine ⟨false, rfl, ?_⟩
          simp only [Bool.false_eq_true, false_iff]
          rintro ⟨_, _, h' | ⟨h', _⟩⟩
          · exact h4 h'
          · rcases h' with h' | h'
            · exact h3 (Or.inr h')
            · exact h3 (Or.inl h')

end Model
