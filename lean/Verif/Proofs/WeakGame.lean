import Verif.Proofs.Lazy
import Verif.Proofs.Weak
import Verif.Proofs.Total
/-!
# Games on boards of every size
-/

namespace Model
open Bits (has)
variable {dbg : Bool}

/-! ### Debug builds do not hang -/

/-- A debug call that ends gives what the release call gives, or panics. -/
theorem Ends.le {α} {x y : M α} (h : Ends x) (hl : Le x y) : x = Model.panic ∨ ∃ a, x = .ok a ∧ y = .ok a := by
  cases hx : x with
  | ok a => exact Or.inr ⟨a, rfl, hl.ok a hx⟩
  | error e =>
    cases e with
    | panic => exact Or.inl rfl
    | diverge => exact absurd hx h

theorem Ends.of_ok {α} {x : M α} {a : α} (e : x = .ok a) : Ends x := by rw [e]; exact .ok

theorem Ends.of_panic {α} {x : M α} (e : x = Model.panic) : Ends x := by rw [e]; exact .panic

theorem Ends.ite {α} {c : Prop} [Decidable c] {x y : M α} (hx : Ends x) (hy : Ends y) : Ends (if c then x else y) := by
  split
  · exact hx
  · exact hy

theorem Ends.mapM {α β} {f : α → M β} (hf : ∀ a, Ends (f a)) : ∀ l : List α, Ends (l.mapM f)
  | [] => by rw [List.mapM_nil]; exact .ok
  | a :: l => by
    rw [List.mapM_cons]
    exact (hf a).bind (fun _ _ => (Ends.mapM hf l).bind (fun _ _ => .ok))

theorem Ends.addLiberty {grp : Group} {i : Nat} : Ends (grp.addLiberty dbg i) := by
  unfold Group.addLiberty Group.addLibertyUnchecked
  cases dbg with
  | false => exact Ends.bitset.bind (fun _ _ => Ends.ok)
  | true =>
    refine Ends.bitget.bind (fun b _ => ?_)
    cases b with
    | true => exact Ends.panic
    | false => exact Ends.bitset.bind (fun _ _ => Ends.ok)

theorem Ends.zobrist {i : Nat} {c : Color} : Ends (indexZobrist i c) := by
  unfold indexZobrist
  repeat' first | split | exact .ok | exact .panic

theorem Ends.setBoard {g : Goban} {i : Nat} {o : Option Nat} : Ends (g.setBoard i o) := by
  unfold Goban.setBoard
  exact .ite .ok .panic

theorem Ends.connectedGroupsIdx {g : Goban} {i : Nat} : Ends (g.connectedGroupsIdx dbg i) := by
  unfold Goban.connectedGroupsIdx
  refine Ends.neighborsIdx.bind (fun l _ => Ends.fold (fun b a => ?_) _ _)
  unfold Goban.connectedStep
  refine Ends.boardAt.bind (fun o _ => ?_)
  cases o <;> exact .ok

theorem Ends.connectedGroups {g : Goban} {c : Coord} : Ends (g.connectedGroups dbg c) := by
  unfold Goban.connectedGroups
  exact Ends.connectedGroupsIdx.bind (fun _ _ => Ends.mapM (fun _ => Ends.chainAt) _)

theorem Ends.removeStoneStep {k : Nat} {c : Color} {g : Goban} {i : Nat} : Ends (Goban.removeStoneStep dbg k c g i) := by
  unfold Goban.removeStoneStep
  refine Ends.connectedGroupsIdx.bind (fun ns _ => Ends.bind (Ends.fold (fun b a => ?_) _ _) (fun g' _ => ?_))
  · exact Ends.chainAt.bind (fun _ _ => Ends.addLiberty.bind (fun _ _ => .ok))
  · exact Ends.zobrist.bind (fun _ _ => Ends.setBoard)

theorem Ends.removeChain {g : Goban} {k : Nat} {gk : Group} (h : Rep g) (hk : g.ch k = some gk) : Ends (g.removeChain dbg k) := by
  obtain ⟨l, hc⟩ := h.chain k gk hk
  unfold Goban.removeChain
  rw [Goban.chainAt_ok hk, ok_bind, Group.iterFold_of (hc.iter h.nlen)]
  refine Ends.bind (Ends.fold (fun _ _ => Ends.removeStoneStep) _ _) (fun g' _ => Ends.bind ?_ (fun _ _ => .ok))
  unfold Groups.remove
  exact .ite .ok .panic

theorem Ends.attach {g : Goban} {p : Nat} {c : Color} {same libs : List Nat} (h0 : Rep g) (hp : p < 361)
    (hb : g.bd p = none) (hl : ∀ i ∈ libs, i < 368) (hnd : same.Nodup)
    (hs : ∀ k ∈ same, ∃ gk, g.ch k = some gk ∧ gk.color = c) : Ends (g.attach dbg p c same libs) := by
  by_cases hk : g.chains.length = 65535 ∧ same.length ≠ 1
  · exact .of_panic (attach_panic h0 hp hl hk.1 hk.2)
  have hroom : g.chains.length < 65535 ∨ same.length = 1 := by
    have := h0.few
    by_cases h1 : same.length = 1
    · exact Or.inr h1
    · left
      have : g.chains.length ≠ 65535 := fun h' => hk ⟨h', h1⟩
      omega
  rcases same with _ | ⟨a, _ | ⟨b, rest⟩⟩
  · obtain ⟨g', e, h⟩ := create_att (dbg := dbg) (c := c) h0 hp hb hl (hroom.resolve_right (by simp))
    exact .of_ok e
  · obtain ⟨ga, ha, hca⟩ := hs a (by simp)
    obtain ⟨la, hcha⟩ := h0.chain a ga ha
    have hlt := Goban.ch_lt ha
    unfold Goban.attach
    dsimp only
    rw [Goban.chainAt_ok ha, ok_bind]
    refine Ends.removeLiberty.bind (fun g1 e1 => ?_)
    obtain ⟨l1, e1', hl1, hh1⟩ := removeLiberty_ok (dbg := false) (i := p) hcha.libs (by omega) (fun h' => by cases h')
    have : g1 = { ga with liberties := l1 } := by
      cases dbg with
      | false => rw [e1'] at e1; cases e1; rfl
      | true =>
        have := (removeLiberty_le ga p).ok _ e1
        rw [e1'] at this; cases this; rfl
    subst this
    obtain ⟨l2, e2, hl2, hh2⟩ := unionSlice_ok libs { ga with liberties := l1 } hl1 hl
    rw [e2, ok_bind]
    let ga2 : Group := { ga with liberties := l2 }
    have hrep1 : Rep (g.setChain a ga2) := h0.setLibs ha hl2
    have hch1 : (g.setChain a ga2).ch a = some ga2 := by rw [Goban.ch_setChain hlt, if_pos rfl]
    obtain ⟨nx, o, z, m, e3, hrep2⟩ := add_ok (dbg := dbg) hrep1 hp hb hch1
    show Ends ((g.setChain a ga2).addStoneToChain dbg a p >>= _)
    cases hadd : (g.setChain a ga2).addStoneToChain dbg a p with
    | error er => rw [hadd] at e3; cases e3
    | ok g3 =>
      rw [ok_bind]
      exact .ite .panic (Ends.setBoard.bind (fun _ _ => .ok))
  · obtain ⟨g1, e1, h1⟩ := create_att (dbg := dbg) (c := c) h0 hp hb hl (hroom.resolve_right (by simp))
    have h1' : Att g g1 p c [] g.chains.length (fun x => x ∈ libs ∨ LibOf g [] x) := h1.congr (by
      intro x
      constructor
      · exact Or.inl
      · rintro (h' | ⟨k, hk, _⟩)
        · exact h'
        · simp at hk)
    obtain ⟨g2, t, e2, h2⟩ := mergeFold_att (dbg := dbg) h0 hb (a :: b :: rest) [] g1 _ h1' (by simpa using hnd) hs
    unfold Goban.attach
    dsimp only
    rw [e1, ok_bind]
    dsimp only
    rw [e2, ok_bind]
    exact Ends.chainAt.bind (fun _ _ => Ends.removeLiberty.bind (fun _ _ => .ok))

theorem Ends.push {g : Goban} {pt : Coord} {c : Color} (h : Rep g) (h19 : g.size.1 ≤ 19) (w19 : g.size.2 ≤ 19)
    (hp : twoTo1dim g.size pt < 361) (hb : g.bd (twoTo1dim g.size pt) = none) : Ends (g.pushWthFeedback dbg pt c) := by
  generalize hpe : twoTo1dim g.size pt = p at *
  unfold Goban.pushWthFeedback
  rw [hpe]
  dsimp only
  refine Ends.neighborsIdx.bind (fun nbs en => ?_)
  have hnb : ∀ x ∈ nbs, x < 361 := by
    have en' : g.neighborsIdx false p = .ok nbs := by
      cases dbg with
      | false => exact en
      | true => exact (Goban.neighborsIdx_le g p).ok _ en
    have hz : g.size.1 ≠ 0 ∧ g.size.2 ≠ 0 := by
      by_cases hz : g.size.1 = 0 ∨ g.size.2 = 0
      · unfold Goban.neighborsIdx oneTo2dim at en'
        rw [if_pos hz] at en'; cases en'
      · rw [not_or] at hz; exact hz
    obtain ⟨l, e, hl⟩ := neighborsIdx_release hz.1 hz.2 h19 w19 p
    rw [e] at en'; cases en'; exact hl
  obtain ⟨a, ea, ha⟩ := around_ok (c := c) h hnb
  rw [ea, ok_bind]
  have hsame : ∀ j ∈ a.same, ∃ gj, g.ch j = some gj ∧ gj.color = c := by
    intro j hj
    obtain ⟨i, hi, hbi, hci⟩ := (ha.same j).1 hj
    obtain ⟨gj, hgj⟩ := h.live i j hbi
    rw [col_of_bd hbi hgj] at hci
    exact ⟨gj, hgj, Option.some.inj hci⟩
  have hopp : ∀ j ∈ a.opp, ∃ gj, g.ch j = some gj ∧ gj.color = c.opp := by
    intro j hj
    obtain ⟨i, hi, hbi, hci⟩ := (ha.opp j).1 hj
    obtain ⟨gj, hgj⟩ := h.live i j hbi
    rw [col_of_bd hbi hgj] at hci
    exact ⟨gj, hgj, Option.some.inj hci⟩
  have hso : ∀ j, j ∈ a.same → j ∈ a.opp → False := by
    intro j h1 h2
    obtain ⟨gk, e1, e2⟩ := hsame j h1
    obtain ⟨gk', e1', e2'⟩ := hopp j h2
    rw [e1] at e1'; cases e1'
    rw [e2] at e2'; exact Color.ne_opp c e2'
  obtain ⟨g1, dead, e1, ht⟩ := take_ok (dbg := false) h (show p < 368 by omega) ha.ond (fun j hj => by
    obtain ⟨gj, h1, _⟩ := hopp j hj
    exact ⟨gj, h1, fun hdb => by cases hdb⟩)
  refine Ends.bind (Ends.fold (fun b k => ?_) _ _) (fun r er => ?_)
  · unfold Goban.takeLiberty
    exact Ends.chainAt.bind (fun _ _ => Ends.removeLiberty.bind (fun _ _ => .ok))
  · have er' : r = (g1, dead) := by
      cases dbg with
      | false => rw [e1] at er; cases er; rfl
      | true =>
        have := (Le.foldlM (fun b k => Goban.takeLiberty_le p b k) a.opp (g, [])).ok _ er
        rw [e1] at this; cases this; rfl
    subst er'
    have hlibs368 : ∀ i ∈ a.libs, i < 368 := by
      intro i hi
      have := hnb i ((ha.libs i).1 hi).1
      omega
    have hs1 : ∀ j ∈ a.same, ∃ gj, g1.ch j = some gj ∧ gj.color = c := fun j hj => by
      obtain ⟨gj, h1, h2⟩ := hsame j hj
      exact ⟨gj, (ht.other j (fun h' => hso j hj h')).trans h1, h2⟩
    dsimp only
    refine (Ends.attach ht.rep hp (by rw [ht.bd, hb]) hlibs368 ha.snd hs1).bind (fun r er => ?_)
    have er' : g1.attach false p c a.same a.libs = .ok r := by
      cases dbg with
      | false => exact er
      | true => exact (Goban.attach_le g1 p c a.same a.libs).ok _ er
    have hroom : g1.chains.length < 65535 ∨ a.same.length = 1 := by
      have := ht.rep.few
      by_cases h1 : a.same.length = 1
      · exact Or.inr h1
      · left
        have : g1.chains.length ≠ 65535 := fun h' => by
          rw [attach_panic ht.rep hp hlibs368 h' h1] at er'; cases er'
        omega
    obtain ⟨r', t, L, e2, hA⟩ := attach_release (c := c) (same := a.same) (libs := a.libs) ht.rep hp
      (by rw [ht.bd, hb]) hlibs368 hroom ha.snd hs1
    rw [e2] at er'; cases er'
    have hz := indexZobrist_ok (c := c) hp
    dsimp only
    rw [hz, ok_bind]
    have hrep : Rep { r' with zobristHash := r'.zobristHash ^^^ zkey p (some c) } := by
      have q := hA.rep
      refine ⟨q.blen, q.nlen, ?_, q.live, q.few⟩
      intro k grp hg
      obtain ⟨l, hc⟩ := q.chain k grp hg
      exact ⟨l, hc.nodup, hc.walk, hc.head, hc.last, hc.num, hc.min, hc.libs, hc.mem⟩
    cases dbg with
    | false => exact .ok
    | true =>
      show Ends (Goban.checkIntegrityAll true _ >>= _)
      rw [checkIntegrityAll_ok hrep]
      exact .ok

theorem Ends.captured {g : Goban} {p : Nat} {c : Color} {f : Goban.Feedback} {sui : Bool} (hf : WPush g p c f) :
    Ends (f.goban.removeCapturedStonesAux dbg sui f.dead f.added) := by
  have key : ∀ (todo done : List Nat) (s : Goban.Captures), WCapt f.goban done s → (done ++ todo).Nodup →
      (∀ k ∈ todo, ∃ gk, f.goban.ch k = some gk) →
      Ends (todo.foldlM (Goban.captureStep dbg (f.dead.length == 1)) s) := by
    intro todo
    induction todo with
    | nil => intro _ _ _ _ _; exact .ok
    | cons k todo ih =>
      intro done s h hnd hk
      obtain ⟨gk, hgk⟩ := hk k (by simp)
      have hnew : k ∉ done := by
        intro h'
        rw [List.nodup_append] at hnd
        exact hnd.2.2 k h' k (by simp) rfl
      obtain ⟨s1, e1, h1⟩ := captureStep_release (only1 := f.dead.length == 1) h hgk hnew
      obtain ⟨l', hk'⟩ := h.ch k gk hnew hgk
      rw [List.foldlM_cons]
      refine Ends.bind ?_ (fun s2 e2 => ?_)
      · unfold Goban.captureStep
        rw [Goban.chainAt_ok hk', ok_bind]
        dsimp only
        have ho : Ends (oneTo2dim s.goban.size gk.origin) := by
          unfold oneTo2dim
          exact .ite .panic .ok
        refine .ite (Ends.bind ?_ (fun _ _ => (Ends.removeChain h.weak.rep hk').bind (fun _ _ => .ok)))
          (Ends.bind .ok (fun _ _ => (Ends.removeChain h.weak.rep hk').bind (fun _ _ => .ok)))
        intro h'
        apply ho
        cases hx : oneTo2dim s.goban.size gk.origin with
        | ok a => rw [hx] at h'; cases h'
        | error e => rw [hx] at h'; cases h'; rfl
      · have : s2 = s1 := by
          cases dbg with
          | false => rw [e1] at e2; cases e2; rfl
          | true =>
            have := (Goban.captureStep_le (f.dead.length == 1) s k).ok _ e2
            rw [e1] at this; cases this; rfl
        subst this
        exact ih (done ++ [k]) _ h1 (by simpa using hnd) (fun j hj => hk j (by simp [hj]))
  have h00 : WCapt f.goban [] { removed := (0, 0), ko := none, goban := f.goban } :=
    ⟨hf.weak, rfl, by simp, fun j gj _ hj => ⟨gj.liberties, hj⟩, fun x => by cases x <;> rfl, rfl⟩
  have hdl : ∀ k ∈ f.dead, ∃ gk, f.goban.ch k = some gk := fun k hk => let ⟨gk, h1, _⟩ := hf.dead k hk; ⟨gk, h1⟩
  unfold Goban.removeCapturedStonesAux
  dsimp only
  refine (key f.dead [] _ h00 (by simpa using hf.dnd) hdl).bind (fun s es => ?_)
  obtain ⟨s', e, h⟩ := capture_release (only1 := f.dead.length == 1) f.dead [] _ h00 (by simpa using hf.dnd) hdl
  have : s = s' := by
    cases dbg with
    | false => rw [e] at es; cases es; rfl
    | true =>
      have := (Le.foldlM (fun b k => Goban.captureStep_le (f.dead.length == 1) b k) f.dead _).ok _ es
      rw [e] at this; cases this; rfl
  subst this
  refine Ends.chainAt.bind (fun ch ech => .ite ?_ .ok)
  have hch : s.goban.ch f.added = some ch := by
    unfold Groups.chainAt at ech
    unfold Goban.ch
    split at ech <;> first | (cases ech; done) | (cases ech; simp_all)
  exact (Ends.removeChain h.weak.rep hch).bind (fun _ _ => .ok)

/-! ### The tests of `try_play` in a release build -/

theorem Weak.getColor {g : Goban} (h : Weak g) {c : Coord} (hc : twoTo1dim g.size c < 361) :
    g.getColor c = .ok (g.col (twoTo1dim g.size c)) := h.rep.getColorIdx hc

theorem Weak.getColor_valid {g : Goban} (h : Weak g) {c : Coord} (hc : isCoordValid g.size c = true) :
    g.getColor c = .ok (g.col (twoTo1dim g.size c)) := h.getColor (twoTo1_lt_any h.h19 h.w19 hc)

theorem mapM_returns {α β} {f : α → M β} : ∀ {l : List α}, (∀ a ∈ l, Returns (f a)) → Returns (l.mapM f)
  | [], _ => by rw [List.mapM_nil]; exact ⟨_, rfl⟩
  | a :: l, h => by
    rw [List.mapM_cons]
    obtain ⟨x, hx⟩ := h a (by simp)
    obtain ⟨y, hy⟩ := mapM_returns (l := l) (fun b hb => h b (by simp [hb]))
    rw [hx, ok_bind, hy]
    exact ⟨_, rfl⟩

theorem Weak.hasLiberties {g : Goban} (h : Weak g) (c : Coord) : Returns (g.hasLiberties false c) := by
  obtain ⟨l, e, hl⟩ := validCoords_release c g.size
  unfold Goban.hasLiberties Goban.neighborsCoords
  rw [e, ok_bind]
  exact ⟨_, Goban.firstLiberty_eq (fun q hq => h.getColor_valid (hl q hq))⟩

theorem Weak.connectedPoints {g : Goban} (h : Weak g) (c : Coord) : Returns (g.connectedPoints false c) := by
  obtain ⟨l, e, hl⟩ := validCoords_release c g.size
  unfold Goban.connectedPoints Goban.neighborsCoords
  rw [e, ok_bind]
  exact mapM_returns (fun q hq => ⟨_, by rw [h.getColor_valid (hl q hq), ok_bind]⟩)

theorem Weak.connectedStones {g : Goban} (h : Weak g) (c : Coord) : Returns (g.connectedStones false c) := by
  obtain ⟨l, e⟩ := h.connectedPoints c
  unfold Goban.connectedStones
  rw [e]
  exact ⟨_, rfl⟩

theorem Weak.connectedGroups {g : Goban} (h : Weak g) (c : Coord) : Returns (g.connectedGroups false c) := by
  obtain ⟨nbs, en, hnb⟩ := neighborsIdx_release h.h0 h.w0 h.h19 h.w19 (twoTo1dim g.size c)
  obtain ⟨ks, e1, hnd, hks⟩ := connectedGroupsIdx_of en h.rep.blen hnb
  unfold Goban.connectedGroups
  rw [e1, ok_bind]
  refine mapM_returns (fun k hk => ?_)
  obtain ⟨j, _, hj⟩ := (hks k).1 hk
  obtain ⟨gj, hgj⟩ := h.rep.live j k hj
  exact ⟨gj, Goban.chainAt_ok hgj⟩

theorem cornerPoints_release (c : Coord) : Returns (cornerPoints false c) := by
  have ha : ∀ x y, ∃ z, addU8 false x y = .ok z := by
    intro x y
    unfold addU8
    split
    · exact ⟨_, rfl⟩
    · exact ⟨_, rfl⟩
  obtain ⟨d, hd⟩ := ha c.1 1
  obtain ⟨r, hr⟩ := ha c.2 1
  unfold cornerPoints
  rw [hd, ok_bind, hr, ok_bind]
  exact ⟨_, rfl⟩

theorem foldlM_returns {α β} {f : β → α → M β} (hf : ∀ b a, Returns (f b a)) : ∀ (l : List α) (b : β), Returns (l.foldlM f b)
  | [], b => ⟨b, rfl⟩
  | a :: l, b => by
    obtain ⟨b', hb'⟩ := hf b a
    rw [List.foldlM_cons, hb', ok_bind]
    exact foldlM_returns hf l b'

theorem Weak.helperCheckEye {g : Game} (h : Weak g.goban) (c : Coord) (col : Color) : Returns (g.helperCheckEye false c col) := by
  obtain ⟨ps, e⟩ := cornerPoints_release c
  unfold Game.helperCheckEye
  rw [e, ok_bind]
  refine foldlM_returns (fun b q => ?_) _ _
  unfold Game.eyeStep
  split
  · rename_i hv
    rw [h.getColor_valid hv, ok_bind]
    split
    · exact ⟨_, rfl⟩
    · split <;> exact ⟨_, rfl⟩
  · exact ⟨_, rfl⟩

theorem Weak.eyeCorners {g : Game} (h : Weak g.goban) (col : Color) : ∀ l, Returns (g.eyeCorners false col l)
  | [] => ⟨_, rfl⟩
  | c :: cs => by
    obtain ⟨ss, e1⟩ := h.connectedStones c
    obtain ⟨r, e2⟩ := h.helperCheckEye c col
    unfold Game.eyeCorners
    rw [Goban.anyConnectedStone_of e1, ok_bind]
    split
    · exact ⟨_, rfl⟩
    · rw [e2, ok_bind]
      dsimp only
      split
      · exact ⟨_, rfl⟩
      · exact h.eyeCorners col cs

theorem Weak.checkEye {g : Game} (h : Weak g.goban) {s : Stone} (hc : twoTo1dim g.goban.size s.coord < 361) :
    Returns (g.checkEye false s) := by
  obtain ⟨ps, e1⟩ := h.connectedPoints s.coord
  obtain ⟨r, e2⟩ := h.helperCheckEye s.coord s.color
  unfold Game.checkEye
  rw [h.getColor hc, ok_bind]
  split
  · exact ⟨_, rfl⟩
  · rw [Goban.anyConnectedPoint_of e1, ok_bind]
    split
    · exact ⟨_, rfl⟩
    · rw [e2, ok_bind]
      dsimp only
      split
      · exact ⟨_, rfl⟩
      · split
        · exact h.eyeCorners _ _
        · exact ⟨_, rfl⟩

theorem Weak.checkKo {g : Game} (h : Weak g.goban) (s : Stone) : Returns (g.checkKo false s) := by
  obtain ⟨ps, e1⟩ := h.connectedGroups s.coord
  unfold Game.checkKo
  split
  · rw [e1]; exact ⟨_, rfl⟩
  · exact ⟨_, rfl⟩

theorem Weak.checkSuicide {g : Game} (h : Weak g.goban) (s : Stone) : Returns (g.checkSuicide false s) := by
  obtain ⟨b, e1⟩ := h.hasLiberties s.coord
  obtain ⟨ps, e2⟩ := h.connectedGroups s.coord
  unfold Game.checkSuicide
  rw [e1, ok_bind]
  split
  · exact ⟨_, rfl⟩
  · rw [e2]; exact ⟨_, rfl⟩

theorem Weak.willCapture {g : Game} (h : Weak g.goban) (c : Coord) : Returns (g.willCapture false c) := by
  obtain ⟨ps, e2⟩ := h.connectedGroups c
  unfold Game.willCapture
  rw [e2]; exact ⟨_, rfl⟩

/-- `==` on two boards of the same size: the colours of the points and the hashes. -/
theorem Weak.beq {a b : Goban} (ha : Weak a) (hb : Weak b) (hs : b.size = a.size) : Returns (a.beq b) := by
  have key : ∀ l : List Coord, (∀ c ∈ l, isCoordValid a.size c = true) → Returns (Goban.beqFrom a b l) := by
    intro l
    induction l with
    | nil => intro _; exact ⟨_, rfl⟩
    | cons c cs ih =>
      intro hl
      unfold Goban.beqFrom
      rw [ha.getColor_valid (hl c (by simp)), ok_bind, hb.getColor_valid (by rw [hs]; exact hl c (by simp)), ok_bind]
      split
      · exact ih (fun q hq => hl q (by simp [hq]))
      · exact ⟨_, rfl⟩
  unfold Goban.beq
  split
  · exact ⟨_, rfl⟩
  · refine key _ ?_
    intro c hc
    unfold Goban.allCoords at hc
    obtain ⟨x, hx, hc⟩ := List.mem_flatMap.1 hc
    obtain ⟨y, hy, rfl⟩ := List.mem_map.1 hc
    rw [List.mem_range] at hx hy
    simp [isCoordValid, hx, hy]

theorem historyContains_returns {b : Goban} (hb : Weak b) : ∀ {l : List Goban}, (∀ a ∈ l, Weak a ∧ a.size = b.size) →
    Returns (historyContains l b)
  | [], _ => ⟨_, rfl⟩
  | a :: l, h => by
    obtain ⟨x, e⟩ := (h a (by simp)).1.beq hb (h a (by simp)).2.symm
    unfold historyContains
    rw [e, ok_bind]
    split
    · exact ⟨_, rfl⟩
    · exact historyContains_returns hb (fun c hc => h c (by simp [hc]))

/-- The games these lemmas are about. -/
structure WGame (g : Game) : Prop where
  weak : Weak g.goban
  hist : ∀ b ∈ g.history, Weak b ∧ b.size = g.goban.size
  passes : g.passes ≤ 2

theorem WGame.contains {g : Game} (h : WGame g) {b : Goban} (hb : Weak b) (hs : b.size = g.goban.size) :
    Returns (historyContains g.history b) :=
  historyContains_returns hb (fun a ha => ⟨(h.hist a ha).1, (h.hist a ha).2.trans hs.symm⟩)

theorem WGame.insert {g : Game} (h : WGame g) : ∃ l, historyInsert g.history g.goban = .ok l ∧
    ∀ b ∈ l, Weak b ∧ b.size = g.goban.size := by
  obtain ⟨x, e⟩ := h.contains h.weak rfl
  unfold historyInsert
  rw [e, ok_bind]
  split
  · exact ⟨_, rfl, h.hist⟩
  · refine ⟨_, rfl, ?_⟩
    intro b hb
    rcases List.mem_append.1 hb with hb | hb
    · exact h.hist b hb
    · rw [List.mem_singleton] at hb; subst hb; exact ⟨h.weak, rfl⟩

theorem WGame.superKo {g : Game} (h : WGame g) {s : Stone} (hc : twoTo1dim g.goban.size s.coord < 361)
    (hb : g.goban.bd (twoTo1dim g.goban.size s.coord) = none) :
    Safe g.Full (g.checkSuperKo false s) (fun _ => True) := by
  obtain ⟨b, e1⟩ := h.weak.willCapture s.coord
  obtain ⟨k, e2⟩ := h.weak.checkKo s
  unfold Game.checkSuperKo
  split
  · exact .ok trivial
  rw [e1, ok_bind]
  split
  · exact .ok trivial
  unfold Game.playForVerification
  rcases push_release (c := g.turn) h.weak rfl hc hb with ⟨f, ef, hf⟩ | ⟨ef, hfull⟩
  · obtain ⟨m, em, hm⟩ := captured_release (sui := g.rule.flagIllegal.suicide) hf hc hb
    rw [ef, ok_bind, em, ok_bind, ok_bind, e2, ok_bind]
    split
    · exact .ok trivial
    · obtain ⟨r, er⟩ := h.contains hm.weak hm.size
      rw [er]; exact .ok trivial
  · rw [ef]
    exact Or.inr ⟨rfl, hfull⟩

theorem WGame.checkPointBy {g : Game} (h : WGame g) {c : Coord} (hc : twoTo1dim g.goban.size c < 361) (r : IllegalRules) :
    Safe g.Full (g.checkPointBy false c r) (fun e => e ≠ some .pointNotEmpty → g.goban.bd (twoTo1dim g.goban.size c) = none) := by
  unfold Game.checkPointBy
  dsimp only
  rw [h.weak.getColor hc, ok_bind]
  split
  · exact .ok (fun h' => absurd rfl h')
  rename_i hcol
  have hb : g.goban.bd (twoTo1dim g.goban.size c) = none := by
    cases hx : g.goban.bd (twoTo1dim g.goban.size c) with
    | none => rfl
    | some k =>
      obtain ⟨gk, hgk⟩ := h.weak.rep.live _ k hx
      rw [col_of_bd hx hgk] at hcol
      exact absurd rfl hcol
  have ret : ∀ {b : Bool} {x : M Bool}, Returns x → Returns (if b = true then x else pure false) := by
    intro b x hx
    split
    · exact hx
    · exact ⟨_, rfl⟩
  obtain ⟨b1, e1⟩ := ret (b := r.suicide) (h.weak.checkSuicide { coord := c, color := g.turn })
  rw [e1, ok_bind]
  split
  · exact .ok (fun _ => hb)
  obtain ⟨b2, e2⟩ := ret (b := r.ko) (h.weak.checkKo { coord := c, color := g.turn })
  rw [e2, ok_bind]
  split
  · exact .ok (fun _ => hb)
  obtain ⟨b3, e3⟩ := ret (b := r.fillEye) (h.weak.checkEye (s := { coord := c, color := g.turn }) hc)
  rw [e3, ok_bind]
  split
  · exact .ok (fun _ => hb)
  have : Safe g.Full (if r.superko = true then g.checkSuperKo false { coord := c, color := g.turn } else pure false) (fun _ => True) := by
    split
    · exact h.superKo hc hb
    · exact .ok trivial
  refine this.bind (fun b _ => ?_)
  split
  · exact .ok (fun _ => hb)
  · exact .ok (fun _ => hb)

/-! ### Moves in a release build -/

/-- What `play` of a stone on the empty cell `p` does. -/
structure WPlay (g : Game) (p : Nat) (g' : Game) : Prop where
  game : WGame g'
  size : g'.goban.size = g.goban.size
  turn : g'.turn = g.turn.opp
  passes : g'.passes = 0
  rule : g'.rule = g.rule
  outcome : g'.outcome = g.outcome
  clen : g'.goban.chains.length ≤ g.goban.chains.length + 1
  cnt : ∀ x, cnt g.goban.col x 361 + removedOf g.prisoners x + (if x = g.turn then 1 else 0) =
    cnt g'.goban.col x 361 + removedOf g'.prisoners x
  col : ∀ i, g'.goban.col i = none ∨ g'.goban.col i = if i = p then some g.turn else g.goban.col i
  sui : g'.goban.col p = none → g.rule.flagIllegal.suicide = false
  own : g'.goban.col p = some g.turn → ∀ i, g.goban.col i = some g.turn → g'.goban.col i = some g.turn
  whole : ∀ i j k, g.goban.bd i = some k → g.goban.bd j = some k → g'.goban.bd i = g'.goban.bd j

theorem WGame.play {g : Game} (h : WGame g) {x y : Nat} (hc : twoTo1dim g.goban.size (x, y) < 361)
    (hb : g.goban.bd (twoTo1dim g.goban.size (x, y)) = none) :
    Safe g.Full (g.play false (.play x y)) (WPlay g (twoTo1dim g.goban.size (x, y))) := by
  obtain ⟨l, el, hl⟩ := h.insert
  unfold Game.play
  dsimp only
  rw [el, ok_bind]
  rcases push_release (c := g.turn) h.weak rfl hc hb with ⟨f, ef, hf⟩ | ⟨ef, hfull⟩
  swap
  · rw [ef]; exact Or.inr ⟨rfl, hfull⟩
  obtain ⟨m, em, hm⟩ := captured_release (sui := !g.rule.flagIllegal.suicide) hf hc hb
  rw [ef, ok_bind]
  unfold Game.removeCapturedStones
  dsimp only
  rw [em, ok_bind, ok_bind]
  refine .ok ⟨⟨hm.weak, ?_, by show 0 ≤ 2; omega⟩, hm.size, rfl, rfl, rfl, rfl, hm.clen, ?_, hm.col, ?_, hm.keepOwn, hm.whole⟩
  · intro b hb
    exact ⟨(hl b hb).1, (hl b hb).2.trans hm.size.symm⟩
  · intro z
    have := hm.cnt z
    cases z <;> simp only [removedOf] at this ⊢ <;> omega
  · intro h'
    have := hm.sui h'
    simpa using this

end Model
