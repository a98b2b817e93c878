import Verif.Model.Listing
import Verif.Proofs.Lazy
import Verif.Proofs.Machine
import Verif.Props.RectMoves
/-!
# Lazy listings, call by call: C103
-/

namespace Spec
open Model

/-- What calls of `next` show of an iterator whose collected result is `r`: the items of the list in order and `None` ever after; or,
if collecting panics, some items and then that panic. -/
def Yields {α β : Type} (it : Listing α β) : M (List β) → Prop
  | .ok l => ∀ j, ∃ it', it.nexts j = .ok ((List.range j).map (fun i => l[i]?), it')
  | .error e => ∃ (xs : List β) (it' : Listing α β), it.nexts xs.length = .ok (xs.map some, it') ∧ it'.next = .error e

/-- Making the iterator panics only if collecting does, and otherwise it yields what is collected. -/
def Lists {α β : Type} (x : M (Listing α β)) (r : M (List β)) : Prop :=
  (∀ e, x = .error e → r = .error e) ∧ ∀ it, x = .ok it → Yields it r

end Spec

namespace Model
open Spec (Yields Lists OnBoard)

variable {dbg : Bool} {α β γ : Type}

namespace Listing

/-- Collecting: `next` until `None`. -/
def collected (f : α → M (Option β)) (l : List α) : M (List β) := do
  let r ← l.mapM f
  .ok (r.filterMap id)

theorem collected_nil (f : α → M (Option β)) : collected f [] = .ok [] := rfl

theorem collected_cons (f : α → M (Option β)) (a : α) (l : List α) :
    collected f (a :: l) = (do
      let o ← f a
      let r ← collected f l
      .ok (match o with | none => r | some b => b :: r)) := by
  unfold collected
  rw [List.mapM_cons]
  cases f a with
  | error e => rfl
  | ok o =>
    rw [ok_bind, ok_bind]
    cases l.mapM f with
    | error e => rfl
    | ok r =>
      rw [ok_bind, ok_bind, ok_bind]
      cases o <;> rfl

theorem nexts_none {f : α → M (Option β)} : ∀ j, nexts j ⟨[], f⟩ = .ok ((List.range j).map (fun _ => none), ⟨[], f⟩)
  | 0 => rfl
  | j + 1 => by
    unfold nexts
    show (do let x ← nexts j ⟨[], f⟩; _) = _
    rw [nexts_none j, ok_bind, List.range_succ_eq_map, List.map_cons, List.map_map]
    rfl

theorem nexts_skip {f : α → M (Option β)} {a : α} {l : List α} (e : f a = .ok none) (j : Nat) :
    nexts (j + 1) ⟨a :: l, f⟩ = nexts (j + 1) ⟨l, f⟩ := by
  unfold nexts next
  dsimp only
  conv => lhs; rw [draw, e]
  rfl

theorem next_skip {f : α → M (Option β)} {a : α} {l : List α} (e : f a = .ok none) : next ⟨a :: l, f⟩ = next ⟨l, f⟩ := by
  unfold next
  dsimp only
  conv => lhs; rw [draw, e]
  rfl

theorem next_take {f : α → M (Option β)} {a : α} {l : List α} {b : β} (e : f a = .ok (some b)) :
    next ⟨a :: l, f⟩ = .ok (some b, ⟨l, f⟩) := by
  unfold next
  dsimp only
  rw [draw, e]
  rfl

theorem yields (f : α → M (Option β)) : ∀ l : List α, Yields ⟨l, f⟩ (collected f l)
  | [] => fun j => ⟨⟨[], f⟩, by
      rw [nexts_none j]
      simp⟩
  | a :: l => by
    have ih := yields f l
    rw [collected_cons]
    cases ha : f a with
    | error e => exact ⟨[], _, rfl, by unfold next; dsimp only; rw [draw, ha]; rfl⟩
    | ok o =>
      rw [ok_bind]
      cases hr : collected f l with
      | error e =>
        rw [hr] at ih
        obtain ⟨xs, it', e1, e2⟩ := ih
        rw [error_bind]
        cases o with
        | none =>
          cases xs with
          | nil =>
            cases e1
            exact ⟨[], _, rfl, by rw [next_skip ha]; exact e2⟩
          | cons x xs => exact ⟨x :: xs, it', by rw [List.length_cons, nexts_skip ha]; exact e1, e2⟩
        | some b =>
          refine ⟨b :: xs, it', ?_, e2⟩
          rw [List.length_cons]
          unfold nexts
          rw [next_take ha, ok_bind]
          dsimp only
          rw [e1]
          rfl
      | ok r =>
        rw [hr] at ih
        rw [ok_bind]
        intro j
        cases j with
        | zero => exact ⟨_, rfl⟩
        | succ j =>
          cases o with
          | none =>
            obtain ⟨it', h⟩ := ih (j + 1)
            exact ⟨it', by rw [nexts_skip ha, h]⟩
          | some b =>
            obtain ⟨it', h⟩ := ih j
            refine ⟨it', ?_⟩
            unfold nexts
            rw [next_take ha, ok_bind]
            dsimp only
            rw [h, ok_bind, List.range_succ_eq_map, List.map_cons, List.map_map]
            rfl

theorem yields_of {it : Listing α β} {r : M (List β)} (h : r = collected it.f it.rest) : Yields it r := h ▸ yields it.f it.rest

theorem lists_of {ι : Type} {x : M ι} {mk : ι → Listing α β} {k : ι → M (List β)}
    (h : ∀ i, x = .ok i → k i = collected (mk i).f (mk i).rest) : Lists (x >>= fun i => .ok (mk i)) (x >>= k) := by
  cases x with
  | error e => exact ⟨fun _ h => (by cases h; rfl), fun _ h => (by cases h)⟩
  | ok i => exact ⟨fun _ h => (by cases h), fun it hit => (by cases hit; exact yields_of (h i rfl))⟩

/-- A chain of a listing whose own items never fail. -/
theorem collected_total {f : α → M (Option β)} {k : α → Option β} : ∀ {l : List α}, (∀ a ∈ l, f a = .ok (k a)) →
    collected f l = .ok (l.filterMap k)
  | [], _ => rfl
  | a :: l, h => by
    rw [collected_cons, h a (by simp), ok_bind, collected_total (fun b hb => h b (by simp [hb])), ok_bind, List.filterMap_cons]
    cases k a <;> rfl

theorem draw_ok {f : α → M (Option β)} : ∀ {l : List α} {o : Option β} {r : List α}, draw f l = .ok (o, r) →
    r.length ≤ l.length ∧ (o ≠ none → r.length < l.length)
  | [], _, _, e => by cases e; simp
  | a :: l, o, r, e => by
    unfold draw at e
    cases ha : f a with
    | error x => rw [ha] at e; cases e
    | ok b =>
      rw [ha, ok_bind] at e
      cases b with
      | some b => cases e; simp
      | none =>
        obtain ⟨h1, h2⟩ := draw_ok e
        exact ⟨by rw [List.length_cons]; omega, fun h => by have := h2 h; rw [List.length_cons]; omega⟩

/-- The search of `any` without the limit on the calls. -/
theorem anyFrom_cons {f : α → M (Option β)} {p : β → Bool} {a : α} {l : List α} {fuel : Nat} :
    anyFrom p (fuel + 1) ⟨a :: l, f⟩ = (do
      match ← f a with
      | none => anyFrom p (fuel + 1) ⟨l, f⟩
      | some b => if p b then .ok true else anyFrom p fuel ⟨l, f⟩) := by
  cases ha : f a with
  | error e => unfold anyFrom next; dsimp only; rw [draw, ha]; rfl
  | ok o =>
    rw [ok_bind]
    cases o with
    | none =>
      unfold anyFrom
      rw [next_skip ha]
    | some b =>
      conv => lhs; unfold anyFrom
      rw [next_take ha]
      rfl

theorem anyFrom_mono {f : α → M (Option β)} {p : β → Bool} : ∀ {l : List α} {x y : Nat}, l.length < x → l.length < y →
    anyFrom p x ⟨l, f⟩ = anyFrom p y ⟨l, f⟩
  | [], x + 1, y + 1, _, _ => rfl
  | a :: l, x + 1, y + 1, hx, hy => by
    rw [List.length_cons] at hx hy
    rw [anyFrom_cons, anyFrom_cons, anyFrom_mono (x := x + 1) (y := y + 1) (by omega) (by omega),
      anyFrom_mono (x := x) (y := y) (by omega) (by omega)]

theorem any_cons {f : α → M (Option β)} {p : β → Bool} {a : α} {l : List α} : any ⟨a :: l, f⟩ p = (do
      match ← f a with
      | none => any ⟨l, f⟩ p
      | some b => if p b then .ok true else any ⟨l, f⟩ p) := by
  unfold any
  dsimp only
  rw [anyFrom_cons, List.length_cons, anyFrom_mono (x := l.length + 1 + 1) (y := l.length + 1) (by omega) (by omega)]

end Listing

open Listing

/-- **C103**, every value of the board type, damaged or not: the calls of `next` on the iterators give what the other theorems say
of the lists, item by item, and the first panic is met when its item is drawn. -/
theorem C103_boards (b : Goban) :
    (Yields b.chainsListing (.ok b.chainsIter)) ∧ (Yields b.stonesListing b.getStones) ∧
    (Yields b.emptyIdxListing (.ok b.getEmptyIdx)) ∧ (Lists b.emptyCoordsListing b.getEmptyCoords) ∧
    (∀ c, Lists (b.connectedPointsListing dbg c) (b.connectedPoints dbg c)) ∧
    (∀ c, Lists (b.connectedStonesListing dbg c) (b.connectedStones dbg c)) ∧
    (∀ c, Lists (b.libertiesListing dbg c) (b.getLiberties dbg c)) ∧
    (∀ k, Lists (b.coordsByColorListing dbg k) (b.getCoordsByColor dbg k)) ∧
    (∀ k, Lists (b.stonesByColorListing dbg k) (b.getStonesByColor dbg k)) := by
  refine ⟨yields_of ?_, yields_of ?_, yields_of ?_, ?_, fun c => ?_, fun c => ?_, fun c => ?_, fun k => ?_, fun k => ?_⟩
  · exact (collected_total (l := b.chains) (k := id) (fun _ _ => rfl)).symm
  · rfl
  · exact (collected_total (l := b.board.zipIdx) (k := fun e => e.1.map (fun _ => e.2)) (fun _ _ => rfl)).symm
  · exact lists_of (fun _ _ => rfl)
  · refine lists_of (fun l h => ?_)
    clear h
    dsimp only
    unfold collected
    induction l with
    | nil => rfl
    | cons p l ih =>
      rw [List.mapM_cons, List.mapM_cons]
      cases b.getColor p with
      | error e => rfl
      | ok col =>
        rw [ok_bind, ok_bind, ok_bind, ok_bind, ih]
        cases (l.mapM (fun p => do let col ← b.getColor p; .ok (some ({ coord := p, color := col } : Point))) : M _) <;> rfl
  · unfold Goban.connectedStonesListing Goban.connectedPointsListing Goban.connectedStones Goban.connectedPoints
    rw [bind_assoc, bind_assoc]
    refine lists_of (mk := fun l => Listing.filterMap _ Point.toStone?) (fun l h => ?_)
    clear h
    dsimp only [Listing.filterMap]
    unfold collected
    induction l with
    | nil => rfl
    | cons p l ih =>
      rw [List.mapM_cons, List.mapM_cons]
      cases b.getColor p with
      | error e => rfl
      | ok col =>
        rw [ok_bind, ok_bind, ok_bind, ok_bind, ok_bind]
        rw [bind_assoc, bind_assoc]
        revert ih
        cases (l.mapM (fun p => do let col ← b.getColor p; .ok ({ coord := p, color := col } : Point)) : M _) with
        | error e =>
          intro ih
          rw [error_bind] at ih ⊢
          revert ih
          generalize (l.mapM _ : M (List (Option Stone))) = z
          intro ih
          cases z with
          | error e' => cases ih; rfl
          | ok r => cases ih
        | ok r =>
          intro ih
          rw [ok_bind] at ih ⊢
          revert ih
          generalize (l.mapM _ : M (List (Option Stone))) = z
          intro ih
          cases z with
          | error e' => cases ih
          | ok r' =>
            injection ih with ih
            show Except.ok _ = Except.ok _
            rw [List.filterMap_cons, List.filterMap_cons, ih]
            rfl
  · refine lists_of (fun l _ => ?_)
    dsimp only [Listing.filter, Listing.ofList]
    unfold collected
    congr 2
    funext p
    rw [ok_bind]
    dsimp only
    cases b.getColor p with
    | error e => rfl
    | ok col => cases col <;> rfl
  · unfold Goban.coordsByColorListing
    have : b.getCoordsByColor dbg k = (b.getCoordsByColor dbg k >>= fun l => .ok l) := by cases b.getCoordsByColor dbg k <;> rfl
    rw [this]
    have : ((b.getCoordsByColor dbg k >>= fun l => .ok l) >>= fun l => (.ok (Listing.ofList l) : M _)) =
      (b.getCoordsByColor dbg k >>= fun l => .ok (Listing.ofList l)) := by cases b.getCoordsByColor dbg k <;> rfl
    rw [this]
    refine lists_of (fun l _ => ?_)
    rw [Listing.ofList, collected_total (k := some) (fun _ _ => rfl), List.filterMap_some]
  · unfold Goban.stonesByColorListing Goban.coordsByColorListing Goban.getStonesByColor
    rw [bind_assoc]
    refine lists_of (mk := fun l => Listing.filterMap (Listing.ofList l) _) (fun l _ => ?_)
    dsimp only [Listing.filterMap, Listing.ofList]
    refine Eq.trans ?_ (collected_total (l := l) (k := fun c : Coord => some ({ coord := c, color := k } : Point)) (fun _ _ => rfl)).symm
    congr 1
    clear * -
    induction l with
    | nil => rfl
    | cons p l ih => rw [List.map_cons, List.filterMap_cons, ih]

/-- The items of `get_empty_coords` never fail: division by zero would need a side of length zero, and then there are none. -/
theorem emptyCoords_item (b : Goban) {it : Listing (Option Nat × Nat) Coord} (e : b.emptyCoordsListing = .ok it) :
    ∃ k : Option Nat × Nat → Option Coord, ∀ a ∈ it.rest, it.f a = .ok (k a) := by
  unfold Goban.emptyCoordsListing at e
  obtain ⟨_, _, e⟩ := bind_eq_ok e
  cases e
  dsimp only
  by_cases hz : b.size.1 = 0 ∨ b.size.2 = 0
  · refine ⟨fun _ => none, fun a ha => ?_⟩
    have h0 : b.size.1 * b.size.2 = 0 := by rcases hz with h | h <;> rw [h] <;> simp
    rw [h0] at ha
    simp at ha
  · refine ⟨fun a => match a.1 with
      | none => some (u8 (a.2 / b.size.1), u8 (a.2 % b.size.2))
      | some _ => none, fun a _ => ?_⟩
    rcases a with ⟨o, i⟩
    cases o with
    | none =>
      dsimp only
      unfold oneTo2dim
      rw [if_neg hz]
      rfl
    | some k => rfl

/-- **C103**, every value of the game type: `pseudo_legals`, `legals_by` and `legals`. A point is checked when it is drawn. -/
theorem C103_games (g : Game) : Lists g.pseudoLegalsListing g.pseudoLegals ∧
    (∀ r, Lists (g.legalsByListing dbg r) (g.legalsBy dbg r)) ∧ Lists (g.legalsListing dbg) (g.legals dbg) := by
  have key : ∀ r, Lists (g.legalsByListing dbg r) (g.legalsBy dbg r) := by
    intro r
    have hp := (C103_boards (dbg := dbg) g.goban).2.2.2.1
    unfold Game.legalsByListing Game.legalsBy Game.pseudoLegalsListing Game.pseudoLegals
    cases hx : g.goban.emptyCoordsListing with
    | error e => rw [hp.1 e hx]; exact ⟨fun _ h => (by cases h; rfl), fun _ h => (by cases h)⟩
    | ok it =>
      obtain ⟨k, hk⟩ := emptyCoords_item _ hx
      have hl : g.goban.getEmptyCoords = .ok (it.rest.filterMap k) := by
        rw [← collected_total hk]
        unfold Goban.emptyCoordsListing at hx
        unfold Goban.getEmptyCoords
        obtain ⟨_, e1, hx⟩ := bind_eq_ok hx
        cases hx
        dsimp only at e1 ⊢
        rw [e1]
        rfl
      rw [hl, ok_bind, ok_bind]
      refine ⟨fun _ h => (by cases h), fun it' h => ?_⟩
      cases h
      refine yields_of ?_
      dsimp only [Listing.filter]
      clear hx hl
      rcases it with ⟨l, f⟩
      dsimp only at hk ⊢
      induction l with
      | nil => rfl
      | cons a l ih =>
        have ih := ih (fun b hb => hk b (by simp [hb]))
        rw [collected_cons, hk a (by simp), ok_bind, List.filterMap_cons, ← ih]
        cases hka : k a with
        | none =>
          dsimp only
          rw [ok_bind]
          dsimp only
          cases (l.filterMap k).mapM (fun c => do
            let e ← g.checkPointBy dbg c r
            .ok (if e.isNone then some c else none)) <;> rfl
        | some c =>
          dsimp only
          rw [List.mapM_cons]
          cases g.checkPointBy dbg c r with
          | error e => rfl
          | ok e =>
            rw [ok_bind, ok_bind, ok_bind]
            cases (l.filterMap k).mapM (fun c => do
              let e ← g.checkPointBy dbg c r
              .ok (if e.isNone then some c else none)) with
            | error x => cases e <;> rfl
            | ok x => cases e <;> rfl
  exact ⟨(C103_boards (dbg := dbg) g.goban).2.2.2.1, key, key _⟩

/-- **C103**, stopping early: the items made from a first part of the source come out, whatever the rest holds. -/
theorem C103_early {f : α → M (Option β)} {k : α → Option β} (b : List α) : ∀ {a : List α}, (∀ x ∈ a, f x = .ok (k x)) →
    ∀ j ≤ (a.filterMap k).length, ∃ it', Listing.nexts j ⟨a ++ b, f⟩ = .ok (((a.filterMap k).take j).map some, it')
  | _, _, 0, _ => ⟨_, rfl⟩
  | [], _, j + 1, hj => by cases hj
  | x :: a, h, j + 1, hj => by
    have ih := fun j => C103_early b (fun y hy => h y (by simp [hy])) (a := a) (j := j)
    have hx := h x (by simp)
    rw [List.filterMap_cons] at hj ⊢
    cases hk : k x with
    | none =>
      rw [hk] at hj hx
      dsimp only at hj ⊢
      obtain ⟨it', e⟩ := ih (j + 1) hj
      exact ⟨it', by rw [List.cons_append, nexts_skip hx, e]⟩
    | some y =>
      rw [hk] at hj hx
      dsimp only at hj ⊢
      obtain ⟨it', e⟩ := ih j (by rw [List.length_cons] at hj; omega)
      refine ⟨it', ?_⟩
      unfold Listing.nexts
      rw [List.cons_append, next_take hx, ok_bind]
      dsimp only
      rw [e]
      rfl

/-- **C103**: `has_liberties` is the first `next` of `get_liberties`, on every board, and it looks up no more colours. -/
theorem C103_has_liberties (b : Goban) (c : Coord) : b.hasLiberties dbg c = (do
    let it ← b.libertiesListing dbg c
    let (o, _) ← it.next
    .ok o.isSome) := by
  unfold Goban.hasLiberties Goban.libertiesListing
  cases b.neighborsCoords dbg c with
  | error e => rfl
  | ok l =>
    rw [ok_bind, ok_bind, ok_bind]
    dsimp only [Listing.filter, Listing.ofList, Listing.next]
    induction l with
    | nil => rfl
    | cons p l ih =>
      unfold Goban.firstLiberty Listing.draw
      rw [ok_bind]
      dsimp only
      cases b.getColor p with
      | error e => rfl
      | ok col =>
        cases col with
        | none => rfl
        | some k => exact ih

/-- **C103**: the searches of `check_eye` are `any` on the iterators of `get_connected_points` and `get_connected_stones`. -/
theorem C103_any (b : Goban) (c : Coord) :
    (∀ t, b.anyConnectedPoint dbg c t = (b.connectedPointsListing dbg c >>= fun it => it.any t)) ∧
    (∀ t, b.anyConnectedStone dbg c t = (b.connectedStonesListing dbg c >>= fun it => it.any t)) := by
  unfold Goban.anyConnectedStone Goban.anyConnectedPoint Goban.connectedStonesListing Goban.connectedPointsListing
  cases b.neighborsCoords dbg c with
  | error e => exact ⟨fun _ => rfl, fun _ => rfl⟩
  | ok l =>
    simp only [ok_bind]
    refine ⟨fun t => ?_, fun t => ?_⟩
    · induction l with
      | nil => rfl
      | cons p l ih =>
        rw [any_cons]
        unfold Goban.anyConnected
        cases b.getColor p with
        | error e => rfl
        | ok col =>
          simp only [ok_bind]
          rw [ih]
    · dsimp only [Listing.filterMap]
      induction l with
      | nil => rfl
      | cons p l ih =>
        rw [any_cons]
        unfold Goban.anyConnected
        cases b.getColor p with
        | error e => rfl
        | ok col =>
          simp only [ok_bind]
          rw [ih]
          cases col with
          | none => rfl
          | some k => rfl

/-- The board is read row by row. -/
def Before (q p : Coord) : Prop := q.1 < p.1 ∨ q.1 = p.1 ∧ q.2 < p.2

theorem points_sorted (n : Dim) : (Spec.points n).Pairwise Before := by
  unfold Spec.points
  rw [List.flatMap_def, List.pairwise_flatten]
  refine ⟨fun l hl => ?_, ?_⟩
  · obtain ⟨r, _, rfl⟩ := List.mem_map.1 hl
    rw [List.pairwise_map]
    exact List.pairwise_lt_range.imp (fun h => .inr ⟨rfl, h⟩)
  · rw [List.pairwise_map]
    refine List.pairwise_lt_range.imp (fun h q hq p hp => ?_)
    obtain ⟨_, _, rfl⟩ := List.mem_map.1 hq
    obtain ⟨_, _, rfl⟩ := List.mem_map.1 hp
    exact .inl h

open Classical in
/-- **C103**, `legals().next()` on a square board, in a reachable game that is not paused: the first point, row by row, that `try_play`
accepts, and `None` exactly if it accepts none. -/
theorem C103_first_legal {n m : Nat} {g : Game} (h : Reach dbg n m g) (hps : g.passes ≠ 2) (hm : m < 65535) :
    ∃ it o it', g.legalsListing dbg = .ok it ∧ it.next = .ok (o, it') ∧
      (o = none → ∀ p, OnBoard n p → ¬ g.Accepts dbg p) ∧
      ∀ p, o = some p → OnBoard n p ∧ g.Accepts dbg p ∧ ∀ q, OnBoard n q → Before q p → ¬ g.Accepts dbg q := by
  obtain ⟨l, e, hl, _⟩ := C17_legals h hps hm
  have hy := (C103_games (dbg := dbg) g).2.2
  rw [e] at hy
  cases hx : g.legalsListing dbg with
  | error x => cases hy.1 x hx
  | ok it =>
    obtain ⟨it', e1⟩ := hy.2 it hx 1
    unfold Listing.nexts at e1
    obtain ⟨⟨o, it1⟩, e2, e1⟩ := bind_eq_ok e1
    cases e1
    refine ⟨it, _, _, rfl, e2, ?_, ?_⟩
    · intro h0 p hp ha
      have : p ∈ l := by rw [hl]; exact List.mem_filter.2 ⟨mem_points.2 hp, by simpa using ha⟩
      cases l with
      | nil => cases this
      | cons a l => cases h0
    · intro p h0
      cases l with
      | nil => cases h0
      | cons a l =>
        cases h0
        have hp : p ∈ (Spec.points n).filter (fun p => g.Accepts dbg p) := by rw [← hl]; simp
        obtain ⟨h1, h2⟩ := List.mem_filter.1 hp
        refine ⟨mem_points.1 h1, by simpa using h2, fun q hq hb ha => ?_⟩
        have hs := (points_sorted n).filter (fun p => decide (g.Accepts dbg p))
        rw [← hl] at hs
        have hq : q ∈ p :: l := by rw [hl]; exact List.mem_filter.2 ⟨mem_points.2 hq, by simpa using ha⟩
        rcases List.mem_cons.1 hq with rfl | hq
        · rcases hb with hb | hb <;> omega
        · rcases hb with hb | hb <;> rcases (List.pairwise_cons.1 hs).1 q hq with h3 | h3 <;> omega

/-- A 2 × 2 board after unchecked plays on occupied points, release build. -/
def damaged : M Game := do
  let g0 ← Game.new (.custom 2 2) CHINESE
  [(1, 1), (0, 1), (1, 0), (0, 1), (1, 0), (0, 0)].foldlM (fun g (p : Coord) => g.play false (.play p.1 p.2)) g0

/-- **C103**, where the two ways differ: after unchecked plays on occupied points of a 2 × 2 board, in a release build, collecting
`get_stones` panics, but the first two calls of `next` return stones; the third panics. -/
theorem C103_witness : ∃ g it', damaged = .ok g ∧ g.goban.getStones = panic ∧
    g.goban.stonesListing.nexts 2 = .ok ([some ⟨(0, 0), .white⟩, some ⟨(0, 1), .white⟩], it') ∧ it'.next = panic := by
  have h : okAnd damaged (fun g => decide (g.goban.getStones = panic) && okAnd (g.goban.stonesListing.nexts 2) (fun r =>
      decide (r.1 = [some ⟨(0, 0), .white⟩, some ⟨(0, 1), .white⟩]) &&
        match r.2.next with
        | .error .panic => true
        | _ => false)) = true := by decide +kernel
  obtain ⟨g, e, h⟩ := okAnd_iff.1 h
  rw [Bool.and_eq_true, decide_eq_true_eq] at h
  obtain ⟨⟨xs, it'⟩, e1, h2⟩ := okAnd_iff.1 h.2
  rw [Bool.and_eq_true, decide_eq_true_eq] at h2
  refine ⟨g, it', e, h.1, ?_, ?_⟩
  · rw [e1, ← h2.1]
  · have h3 := h2.2
    dsimp only at h3
    split at h3
    · assumption
    · cases h3

/-- Non-vacuity of `C103_first_legal`: on a 2 × 2 board after a stone in the corner the first legal point is the next one. -/
theorem C103_witness_legal : ∃ g m, Reach true (2 : Nat) m g ∧ m < 65535 ∧ g.passes ≠ 2 ∧ ∃ it it', g.legalsListing true = .ok it ∧
    it.next = .ok (some (0, 1), it') := by
  obtain ⟨g, h, h2⟩ := mkGame_exists (dbg := true) (n := 2) (rule := CHINESE) (l := [.try_ (.play 0 0)])
    (f := fun g => decide (g.passes ≠ 2) && okAnd (g.legalsListing true) (fun it => okAnd it.next (fun r => decide (r.1 = some (0, 1)))))
    (by decide) (by decide +kernel)
  rw [Bool.and_eq_true, decide_eq_true_eq] at h2
  obtain ⟨it, e, h3⟩ := okAnd_iff.1 h2.2
  obtain ⟨⟨o, it'⟩, e1, h4⟩ := okAnd_iff.1 h3
  rw [decide_eq_true_eq] at h4
  obtain ⟨m, hm, hr⟩ := h.reach
  exact ⟨g, m, hr, Nat.lt_of_le_of_lt hm (by decide), h2.1, it, it', e, by rw [e1, ← h4]⟩

end Model
