import Verif.Model.Game
/-!
# Iterators asked item by item

When the whole list of items can be computed, asking one item at a time gives what the list says.
-/

namespace Model
namespace Group

variable {σ : Type} {dbg : Bool} {body : σ → Nat → M σ}

theorem iterFoldFrom_of {ns : List Nat} {o : Nat} : ∀ {fuel cur : Nat} {pts : List Nat} {s : σ},
    iterFrom dbg ns o fuel cur = .ok pts → iterFoldFrom dbg ns o body fuel cur s = pts.foldlM body s
  | 0, _, _, _, e => by cases e
  | fuel + 1, cur, pts, s, e => by
    unfold iterFrom at e
    unfold iterFoldFrom
    cases hn : ns[cur]? with
    | none => rw [hn] at e; cases e
    | some nx =>
      rw [hn] at e
      dsimp only at e ⊢
      by_cases h1 : nx = o
      · rw [if_pos h1] at e ⊢
        cases e
        rw [List.foldlM_cons]
        cases body s cur <;> rfl
      · rw [if_neg h1] at e ⊢
        by_cases h2 : (dbg && nx == cur) = true
        · rw [if_pos h2] at e; cases e
        · rw [if_neg h2] at e ⊢
          cases hr : iterFrom dbg ns o fuel nx with
          | error x => rw [hr] at e; cases e
          | ok rest =>
            rw [hr] at e
            cases e
            rw [List.foldlM_cons]
            cases body s cur with
            | error x => rfl
            | ok s' => exact iterFoldFrom_of hr

theorem iterFoldFrom_ok {ns : List Nat} {o : Nat} : ∀ {fuel cur : Nat} {s s' : σ},
    iterFoldFrom dbg ns o body fuel cur s = .ok s' → ∃ pts, iterFrom dbg ns o fuel cur = .ok pts
  | 0, _, _, _, e => by cases e
  | fuel + 1, cur, s, s', e => by
    unfold iterFoldFrom at e
    unfold iterFrom
    cases hn : ns[cur]? with
    | none => rw [hn] at e; cases e
    | some nx =>
      rw [hn] at e
      dsimp only at e ⊢
      by_cases h1 : nx = o
      · rw [if_pos h1]; exact ⟨_, rfl⟩
      · rw [if_neg h1] at e ⊢
        by_cases h2 : (dbg && nx == cur) = true
        · rw [if_pos h2] at e; cases e
        · rw [if_neg h2] at e ⊢
          cases hb : body s cur with
          | error x => rw [hb] at e; cases e
          | ok s1 =>
            rw [hb] at e
            obtain ⟨rest, hr⟩ := iterFoldFrom_ok e
            rw [hr]
            exact ⟨_, rfl⟩

/-- When the walk ends, the loop is the fold over its stones. -/
theorem iterFold_of {g : Group} {ns pts : List Nat} {s : σ} (e : g.iter dbg ns = .ok pts) :
    g.iterFold dbg ns body s = pts.foldlM body s := iterFoldFrom_of e

/-- When the loop ends, the walk does. -/
theorem iterFold_ok {g : Group} {ns : List Nat} {s s' : σ} (e : g.iterFold dbg ns body s = .ok s') :
    ∃ pts, g.iter dbg ns = .ok pts ∧ pts.foldlM body s = .ok s' := by
  obtain ⟨pts, h⟩ := iterFoldFrom_ok e
  exact ⟨pts, h, by rw [← e]; exact (iterFold_of h).symm⟩

end Group

namespace Goban

variable {dbg : Bool} {g : Goban} {c : Coord}

theorem getColors_mapM {β} {k : Coord → MaybeColor → β} : ∀ {l : List Coord} {r : List β},
    (l.mapM (fun p => do let col ← g.getColor p; .ok (k p col)) : M (List β)) = .ok r →
    ∃ f : Coord → MaybeColor, (∀ p ∈ l, g.getColor p = .ok (f p)) ∧ r = l.map (fun p => k p (f p))
  | [], r, e => by
    rw [List.mapM_nil] at e
    cases e
    exact ⟨fun _ => none, by simp, rfl⟩
  | p :: l, r, e => by
    rw [List.mapM_cons] at e
    cases hp : g.getColor p with
    | error x => rw [hp] at e; cases e
    | ok col =>
      rw [hp, ok_bind, ok_bind] at e
      cases hl : (l.mapM (fun p => do let col ← g.getColor p; .ok (k p col)) : M (List β)) with
      | error x => rw [hl] at e; cases e
      | ok r' =>
        rw [hl] at e
        cases e
        obtain ⟨f, hf, rfl⟩ := getColors_mapM hl
        refine ⟨fun q => match g.getColor q with | .ok x => x | .error _ => none, fun q hq => ?_, ?_⟩
        · rcases List.mem_cons.1 hq with rfl | hq
          · dsimp only; rw [hp]
          · dsimp only; rw [hf q hq]
        · rw [List.map_cons]
          dsimp only
          rw [hp]
          congr 1
          exact List.map_congr_left (fun q hq => by rw [hf q hq])

theorem firstLiberty_eq {f : Coord → MaybeColor} : ∀ {l : List Coord}, (∀ p ∈ l, g.getColor p = .ok (f p)) →
    g.firstLiberty l = .ok (l.any (fun p => (f p).isNone))
  | [], _ => rfl
  | p :: l, h => by
    unfold firstLiberty
    rw [h p (by simp), ok_bind, List.any_cons]
    cases hf : (f p).isNone with
    | true => rfl
    | false =>
      rw [Bool.false_or, ← firstLiberty_eq (fun q hq => h q (by simp [hq]))]
      rfl

theorem anyConnected_eq {t : Point → Bool} {f : Coord → MaybeColor} : ∀ {l : List Coord},
    (∀ p ∈ l, g.getColor p = .ok (f p)) → g.anyConnected t l = .ok (l.any (fun p => t { coord := p, color := f p }))
  | [], _ => rfl
  | p :: l, h => by
    unfold anyConnected
    rw [h p (by simp), ok_bind, List.any_cons]
    cases hf : t { coord := p, color := f p } with
    | true => rfl
    | false =>
      rw [Bool.false_or, ← anyConnected_eq (fun q hq => h q (by simp [hq]))]
      rfl

/-- `has_liberties`, from the list of `get_liberties`. -/
theorem hasLiberties_of {l : List Coord} (e : g.getLiberties dbg c = .ok l) : g.hasLiberties dbg c = .ok (!l.isEmpty) := by
  unfold getLiberties at e
  unfold hasLiberties
  cases hn : g.neighborsCoords dbg c with
  | error x => rw [hn] at e; cases e
  | ok ns =>
    rw [hn, ok_bind] at e
    rw [ok_bind]
    cases hm : (ns.mapM (fun p => do let col ← g.getColor p; .ok (if col.isNone then some p else none)) : M (List (Option Coord))) with
    | error x => rw [hm] at e; cases e
    | ok r =>
      rw [hm] at e
      cases e
      obtain ⟨f, hf, rfl⟩ := getColors_mapM (k := fun p col => if col.isNone then some p else none) hm
      rw [firstLiberty_eq hf]
      congr 1
      clear hf hm hn
      induction ns with
      | nil => rfl
      | cons p ns ih =>
        rw [List.any_cons, List.map_cons, List.filterMap_cons, ih]
        cases (f p).isNone <;> rfl

/-- `get_connected_points(c).any(t)`, from the list. -/
theorem anyConnectedPoint_of {ps : List Point} (e : g.connectedPoints dbg c = .ok ps) (t : Point → Bool) :
    g.anyConnectedPoint dbg c t = .ok (ps.any t) := by
  unfold connectedPoints at e
  unfold anyConnectedPoint
  cases hn : g.neighborsCoords dbg c with
  | error x => rw [hn] at e; cases e
  | ok ns =>
    rw [hn, ok_bind] at e
    rw [ok_bind]
    obtain ⟨f, hf, rfl⟩ := getColors_mapM (k := fun p col => ({ coord := p, color := col } : Point)) e
    rw [anyConnected_eq hf, List.any_map]
    rfl

/-- `get_connected_stones(c).any(t)`, from the list. -/
theorem anyConnectedStone_of {ss : List Stone} (e : g.connectedStones dbg c = .ok ss) (t : Stone → Bool) :
    g.anyConnectedStone dbg c t = .ok (ss.any t) := by
  unfold connectedStones at e
  cases hp : g.connectedPoints dbg c with
  | error x => rw [hp] at e; cases e
  | ok ps =>
    rw [hp] at e
    cases e
    unfold anyConnectedStone
    rw [anyConnectedPoint_of hp]
    congr 1
    clear hp
    induction ps with
    | nil => rfl
    | cons p ps ih =>
      rw [List.any_cons, List.filterMap_cons, ih]
      cases p.toStone? <;> rfl

theorem hasLiberties_panic (e : g.neighborsCoords dbg c = panic) : g.hasLiberties dbg c = panic := by
  unfold hasLiberties; rw [e]; rfl

theorem anyConnectedPoint_panic (e : g.neighborsCoords dbg c = panic) (t : Point → Bool) : g.anyConnectedPoint dbg c t = panic := by
  unfold anyConnectedPoint; rw [e]; rfl

end Goban
end Model
