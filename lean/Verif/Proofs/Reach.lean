import Verif.Proofs.Capture
/-!
# Reachable boards and games satisfy the invariant
-/

namespace Model
open Spec (OnBoard)

theorem bind_eq_ok {α β} {x : M α} {f : α → M β} {b : β} (h : (x >>= f) = .ok b) : ∃ a, x = .ok a ∧ f a = .ok b := by
  cases x with
  | error e => cases h
  | ok a => exact ⟨a, rfl, h⟩

theorem assertM_eq_ok {b : Bool} {u : Unit} (h : assertM b = .ok u) : b = true := by
  unfold assertM at h
  cases b
  · cases h
  · rfl

theorem new_eq_ok {s : Size} {g : Goban} (h : Goban.new s = .ok g) : s.1 ≤ 19 ∧ s.2 ≤ 19 ∧
    g = { size := s, zobristHash := 0, board := List.replicate 361 none, nextStone := List.replicate 361 0, chains := [] } := by
  unfold Goban.new at h
  obtain ⟨_, h1, h2⟩ := bind_eq_ok h
  have := assertM_eq_ok h1
  simp only [Bool.and_eq_true, decide_eq_true_eq] at this
  exact ⟨this.1, this.2, (Except.ok.inj h2).symm⟩

theorem new_inv {n : Dim} {g : Goban} (hf : n.Fits) (h : Goban.new n.sz = .ok g) : Inv n g ∧ g.chains = [] ∧ ∀ i, g.col i = none := by
  obtain ⟨hn, hw, hg⟩ := new_eq_ok h
  have hb : ∀ i, g.bd i = none := by
    intro i
    subst hg
    simp only [Goban.bd, List.getElem?_replicate]
    split <;> rfl
  have hc : ∀ i, g.ch i = none := by
    intro i
    subst hg
    simp [Goban.ch]
  have hcol : ∀ i, g.col i = none := fun i => col_none (hb i)
  refine ⟨⟨⟨by subst hg; exact List.length_replicate, by subst hg; exact List.length_replicate, ?_, ?_, by subst hg; exact Nat.zero_le _⟩, by subst hg; rfl, ⟨hf, hn, hw⟩, ?_, ?_, ?_, ?_, ?_⟩,
    by subst hg; rfl, hcol⟩
  · intro k grp h'; rw [hc] at h'; cases h'
  · intro i k h'; rw [hb] at h'; cases h'
  · intro i k h'; rw [hb] at h'; cases h'
  · intro i j k _ h'; rw [hb] at h'; cases h'
  · intro k i j h'; rw [hb] at h'; cases h'
  · intro k grp h'; rw [hc] at h'; cases h'
  · have : ∀ m, hashFn g.col m = 0 := by
      intro m
      rw [hashFn_congr (f' := fun _ => none) (fun i _ => hcol i)]
      induction m with
      | zero => rfl
      | succ m ih => simp [hashFn, ih, zkey]
    rw [this 361]; subst hg; rfl

theorem debugAssert_true {dbg b : Bool} (h : b = true) : debugAssert dbg b = .ok () := by
  subst h; unfold debugAssert; simp

theorem push_eq {dbg : Bool} {n : Dim} {g : Goban} {p : Coord} {c : Color} (hs : g.size = n.sz) (hp : OnBoard n p) :
    g.push dbg p c = (do let f ← g.pushWthFeedback dbg p c; .ok f.goban) := by
  unfold Goban.push
  rw [debugAssert_true (by rw [hs]; exact decide_eq_true hp.1), ok_bind, debugAssert_true (by rw [hs]; exact decide_eq_true hp.2), ok_bind]

theorem Inv.push_total {dbg : Bool} {n : Dim} {g : Goban} {p : Coord} {c : Color} (h : Inv n g) (hp : OnBoard n p)
    (hv : g.view p = none) :
    (∃ g', g.push dbg p c = .ok g' ∧ Inv n g' ∧ g'.chains.length ≤ g.chains.length + 1 ∧
      (∀ i, g'.col i = if i = twoTo1dim n.sz p then some c else g.col i)) ∨
      (g.push dbg p c = panic ∧ g.chains.length = 65535) := by
  rw [push_eq h.size hp]
  rcases Model.push_total (dbg := dbg) (c := c) h hp ((h.view_none_iff hp).1 hv) with ⟨f, e, hf⟩ | ⟨e, hl⟩
  · exact Or.inl ⟨f.goban, by rw [e]; rfl, hf.inv, hf.clen, hf.col⟩
  · exact Or.inr ⟨by rw [e]; rfl, hl⟩

theorem live_ch {g : Goban} {k : Nat} {grp : Group} : g.chains.chainAt k = .ok grp ↔ g.ch k = some grp := by
  constructor
  · intro h
    unfold Groups.chainAt at h
    unfold Goban.ch
    split at h
    · rename_i g' hg; rw [hg]; cases h; rfl
    · cases h
  · exact Goban.chainAt_ok

theorem getColor_none {n : Dim} {g : Goban} {p : Coord} (h : Inv n g) (hp : OnBoard n p) :
    g.getColor p = .ok none ↔ g.view p = none := by
  rw [h.getColor_view hp]
  constructor
  · intro h'; exact Except.ok.inj h'
  · intro h'; rw [h']

theorem Board.inv {dbg : Bool} {n : Dim} {m : Nat} {g : Goban} (h : Board dbg n m g) : Inv n g ∧ g.chains.length ≤ m := by
  induction h with
  | new hf h => obtain ⟨h1, h2, _⟩ := new_inv hf h; exact ⟨h1, by rw [h2]; simp⟩
  | push h hp hv he ih =>
    obtain ⟨hI, hl⟩ := ih
    rcases hI.push_total (dbg := dbg) hp ((getColor_none hI hp).1 hv) with ⟨g', e, h1, h2, _⟩ | ⟨e, _⟩
    · rw [e] at he; cases he
      exact ⟨h1, by omega⟩
    · rw [e] at he; cases he
  | remove h hk he ih =>
    obtain ⟨hI, hl⟩ := ih
    obtain ⟨grp, hg⟩ := hk
    obtain ⟨g', e, hr⟩ := remove_spec (dbg := dbg) hI (live_ch.1 hg)
    rw [e] at he; cases he
    exact ⟨hr.inv, by rw [hr.clen]; exact hl⟩

/-! ### A move is a push followed by removals of live groups -/

theorem capture_fold_board {dbg only1 : Bool} {n : Dim} {m : Nat} : ∀ (l : List Nat) (s s' : Goban.Captures),
    Board dbg n m s.goban → l.foldlM (Goban.captureStep dbg only1) s = .ok s' → Board dbg n m s'.goban
  | [], s, s', h, e => by cases e; exact h
  | k :: l, s, s', h, e => by
    rw [List.foldlM_cons] at e
    obtain ⟨s1, e1, e2⟩ := bind_eq_ok e
    refine capture_fold_board l s1 s' ?_ e2
    unfold Goban.captureStep at e1
    obtain ⟨grp, h1, e1⟩ := bind_eq_ok e1
    dsimp only at e1
    split at e1
    all_goals
      obtain ⟨_, _, e1⟩ := bind_eq_ok e1
      obtain ⟨g', h2, e1⟩ := bind_eq_ok e1
      cases e1
      exact .remove h ⟨grp, h1⟩ h2

theorem Board.move {dbg suicide : Bool} {n : Dim} {m : Nat} {g : Goban} {p : Coord} {c : Color} {s : Goban.Captures}
    (h : Board dbg n m g) (hp : OnBoard n p) (hv : g.getColor p = .ok none) (e : g.move dbg suicide p c = .ok s) :
    Board dbg n (m + 1) s.goban := by
  unfold Goban.move at e
  obtain ⟨f, ef, e⟩ := bind_eq_ok e
  have hb : Board dbg n (m + 1) f.goban := .push h hp hv (by rw [push_eq h.inv.1.size hp, ef]; rfl)
  unfold Goban.removeCapturedStonesAux at e
  obtain ⟨s1, e1, e⟩ := bind_eq_ok e
  have hb1 := capture_fold_board _ _ _ (by exact hb) e1
  obtain ⟨grp, hg, e⟩ := bind_eq_ok e
  split at e
  · obtain ⟨g', h2, e⟩ := bind_eq_ok e
    cases e
    exact .remove hb1 ⟨grp, hg⟩ h2
  · cases e; exact hb1

theorem play_eq {dbg : Bool} {g : Game} {x y : Nat} :
    g.play dbg (.play x y) = (do
      let h ← historyInsert g.history g.goban
      let s ← g.goban.move dbg (!g.rule.flagIllegal.suicide) (x, y) g.turn
      .ok { g with history := h, goban := s.goban, koPoint := s.ko, turn := g.turn.opp, passes := 0,
                   prisoners := (g.prisoners.1 + s.removed.1, g.prisoners.2 + s.removed.2) }) := by
  unfold Game.play Goban.move Game.removeCapturedStones
  cases historyInsert g.history g.goban with
  | error e => rfl
  | ok h =>
    simp only [ok_bind]
    cases g.goban.pushWthFeedback dbg (x, y) g.turn with
    | error e => rfl
    | ok f =>
      simp only [ok_bind]
      cases f.goban.removeCapturedStonesAux dbg (!g.rule.flagIllegal.suicide) f.dead f.added with
      | error e => rfl
      | ok s => rfl

/-! ### Pushing a list of stones -/

/-- `push` of stones one after another. -/
def Goban.pushAll (dbg : Bool) (g : Goban) (l : List Stone) : M Goban := l.foldlM (fun g s => g.push dbg s.coord s.color) g

/-- The position after putting stones one after another. -/
def putAll (pos : Spec.Pos) (l : List Stone) : Spec.Pos := l.foldl (fun pos s => Spec.place pos s.coord s.color) pos

theorem place_congr {n : Dim} {a b : Spec.Pos} (h : Spec.SameOn n a b) (p : Coord) (c : Color) :
    Spec.SameOn n (Spec.place a p c) (Spec.place b p c) := by
  intro q hq; unfold Spec.place; split
  · rfl
  · exact h q hq

theorem putAll_congr {n : Dim} : ∀ (l : List Stone) {a b : Spec.Pos}, Spec.SameOn n a b → Spec.SameOn n (putAll a l) (putAll b l)
  | [], _, _, h => h
  | s :: l, _, _, h => putAll_congr l (place_congr h s.coord s.color)

theorem push_view {n : Dim} {g g' : Goban} {p : Coord} {c : Color} (h : Inv n g) (h' : Inv n g') (hp : OnBoard n p)
    (hc : ∀ i, g'.col i = if i = twoTo1dim n.sz p then some c else g.col i) :
    Spec.SameOn n g'.view (Spec.place g.view p c) := by
  intro q hq
  rw [h'.view hq, hc]
  unfold Spec.place
  by_cases hqp : q = p
  · rw [if_pos hqp, hqp, if_pos rfl]
  · rw [if_neg hqp, if_neg (fun h' => hqp (twoTo1_inj h.good hq hp h')), h.view hq]

theorem pushAll_total {dbg : Bool} {n : Dim} : ∀ (l : List Stone) {m : Nat} {g : Goban}, Board dbg n m g →
    (l.map Stone.coord).Nodup → (∀ s ∈ l, OnBoard n s.coord ∧ g.view s.coord = none) →
    (∃ g', g.pushAll dbg l = .ok g' ∧ Board dbg n (m + l.length) g' ∧ Spec.SameOn n g'.view (putAll g.view l)) ∨
      (g.pushAll dbg l = panic ∧ 65535 < m + l.length)
  | [], m, g, h, _, _ => Or.inl ⟨g, rfl, h, fun _ _ => rfl⟩
  | s :: l, m, g, h, hnd, hs => by
    obtain ⟨hp, hv⟩ := hs s (by simp)
    obtain ⟨hI, hl⟩ := h.inv
    unfold Goban.pushAll
    rw [List.foldlM_cons]
    rcases hI.push_total (dbg := dbg) (c := s.color) hp hv with ⟨g', e, h1, h2, h3⟩ | ⟨e, h2⟩
    · rw [e, ok_bind]
      have hb : Board dbg n (m + 1) g' := .push h hp ((getColor_none hI hp).2 hv) e
      have hv' := push_view hI h1 hp h3
      rw [List.map_cons, List.nodup_cons] at hnd
      rcases pushAll_total l hb hnd.2 (by
        intro t ht
        obtain ⟨a, b⟩ := hs t (by simp [ht])
        refine ⟨a, ?_⟩
        rw [hv' _ a]; unfold Spec.place; rw [if_neg, b]
        intro h'; exact hnd.1 (h' ▸ List.mem_map_of_mem ht)) with ⟨g2, e2, b2, v2⟩ | ⟨e2, b2⟩
      · refine Or.inl ⟨g2, e2, ?_, ?_⟩
        · rw [List.length_cons]; rw [show m + (l.length + 1) = m + 1 + l.length by omega]; exact b2
        · exact SameOn.trans v2 (putAll_congr l hv')
      · exact Or.inr ⟨e2, by rw [List.length_cons]; omega⟩
    · rw [e]
      exact Or.inr ⟨rfl, by rw [List.length_cons]; omega⟩

theorem pushMany_eq {dbg : Bool} {g : Goban} {ps : List Coord} {c : Color} :
    g.pushMany dbg ps c = g.pushAll dbg (ps.map (fun p => { coord := p, color := c })) := by
  unfold Goban.pushMany Goban.pushAll
  rw [List.foldlM_map]

theorem new_view {n : Dim} {g : Goban} (hf : n.Fits) (h : Goban.new n.sz = .ok g) : Spec.SameOn n g.view (fun _ => none) := by
  obtain ⟨h1, _, h2⟩ := new_inv hf h
  intro p hp; rw [h1.view hp, h2]

theorem foldlM_append' {α β} (f : β → α → M β) : ∀ (l1 l2 : List α) (b : β),
    (l1 ++ l2).foldlM f b = (l1.foldlM f b >>= fun b => l2.foldlM f b)
  | [], _, _ => rfl
  | a :: l1, l2, b => by
    rw [List.cons_append, List.foldlM_cons, List.foldlM_cons]
    cases f b a with
    | error e => rfl
    | ok b' => exact foldlM_append' f l1 l2 b'

/-- All stones put by a builder before the moves. -/
def GameBuilder.stones (b : GameBuilder) : List Stone :=
  b.handicapPoints.map (fun p => { coord := p, color := .black }) ++ b.setup

theorem start_eq {dbg : Bool} {b : GameBuilder} : b.start dbg = (do
    let g0 ← Goban.new b.size
    let goban ← g0.pushAll dbg b.stones
    .ok { goban, passes := 0, prisoners := (0, 0), outcome := b.outcome,
          turn := b.turn.getD (if b.handicap.getD b.handicapPoints.length ≠ 0 then .white else .black),
          rule := (match b.komi with
            | some k => { b.rule with komi := k }
            | none => b.rule),
          handicap := b.handicap.getD b.handicapPoints.length, history := [], koPoint := none }) := by
  unfold GameBuilder.start GameBuilder.stones Goban.pushAll
  cases Goban.new b.size with
  | error e => rfl
  | ok g0 =>
    simp only [ok_bind]
    rw [foldlM_append', List.foldlM_map]
    cases b.handicapPoints.foldlM (fun g p => Goban.push dbg g p .black) g0 with
    | error e => rfl
    | ok g1 =>
      simp only [ok_bind, Goban.pushStone]
      cases b.komi <;> rfl

theorem stones_coord (b : GameBuilder) : b.stones.map Stone.coord = b.handicapPoints ++ b.setup.map Stone.coord := by
  unfold GameBuilder.stones
  rw [List.map_append, List.map_map]
  congr 1
  exact List.map_id _

structure FreshSpec (dbg : Bool) (n : Dim) (m : Nat) (g : Game) : Prop where
  board : Board dbg n m g.goban
  history : g.history = []
  ko : g.koPoint = none
  passes : g.passes = 0
  prisoners : g.prisoners = (0, 0)

theorem Fresh.spec {dbg : Bool} {n : Dim} {m : Nat} {g : Game} (h : Fresh dbg n m g) : FreshSpec dbg n m g := by
  induction h with
  | new hf hs h =>
    unfold Game.new at h
    obtain ⟨b, e, h⟩ := bind_eq_ok h
    cases h
    rw [hs] at e
    exact ⟨.new hf e, rfl, rfl, rfl, rfl⟩
  | @build b g hf hs hm hnd hon h =>
    unfold GameBuilder.buildInner at h
    obtain ⟨g0, e, h⟩ := bind_eq_ok h
    rw [hm] at h; cases h
    rw [start_eq, hs] at e
    obtain ⟨b0, e0, e⟩ := bind_eq_ok e
    obtain ⟨b1, e1, e⟩ := bind_eq_ok e
    cases e
    have hb0 : Board dbg n 0 b0 := .new hf e0
    rcases pushAll_total b.stones hb0 (by rw [stones_coord]; exact hnd) (by
      intro s hs
      have : OnBoard n s.coord := hon _ (by rw [← stones_coord]; exact List.mem_map_of_mem hs)
      exact ⟨this, new_view hf e0 _ this⟩) with ⟨g', e', hb, _⟩ | ⟨e', _⟩
    · rw [e'] at e1; cases e1
      refine ⟨?_, rfl, rfl, rfl, rfl⟩
      have : b.stones.length = b.handicapPoints.length + b.setup.length := by simp [GameBuilder.stones]
      rw [Nat.zero_add, this] at hb; exact hb
    · rw [e'] at e1; cases e1
  | @handicap m g ps g' _ hnd hps h ih =>
    unfold Game.putHandicap at h
    obtain ⟨b1, e1, h⟩ := bind_eq_ok h
    cases h
    rw [pushMany_eq] at e1
    have hI := ih.board.inv.1
    rcases pushAll_total (ps.map (fun p => { coord := p, color := .black })) ih.board (by
        rw [List.map_map]; show (ps.map id).Nodup; rw [List.map_id]; exact hnd) (by
      intro s hs
      obtain ⟨p, hp, rfl⟩ := List.mem_map.1 hs
      obtain ⟨h1, h2⟩ := hps p hp
      exact ⟨h1, (getColor_none hI h1).1 h2⟩) with ⟨g', e', hb, _⟩ | ⟨e', _⟩
    · rw [e'] at e1; cases e1
      rw [List.length_map] at hb
      exact ⟨hb, ih.history, ih.ko, ih.passes, ih.prisoners⟩
    · rw [e'] at e1; cases e1

theorem Board.size {dbg : Bool} {n : Dim} {m : Nat} {g : Goban} (h : Board dbg n m g) : g.size = n.sz := h.inv.1.size

theorem historyInsert_mem {l l' : List Goban} {g : Goban} (h : historyInsert l g = .ok l') : l' = l ∨ l' = l ++ [g] := by
  unfold historyInsert at h
  obtain ⟨b, _, h⟩ := bind_eq_ok h
  split at h <;> cases h
  · exact Or.inl rfl
  · exact Or.inr rfl

structure ReachSpec (dbg : Bool) (n : Dim) (m : Nat) (g : Game) : Prop where
  board : Board dbg n m g.goban
  history : ∀ b ∈ g.history, ∃ m', m' ≤ m ∧ Board dbg n m' b

theorem Reach.spec {dbg : Bool} {n : Dim} {m : Nat} {g : Game} (h : Reach dbg n m g) : ReachSpec dbg n m g := by
  induction h with
  | fresh h => exact ⟨h.spec.board, by rw [h.spec.history]; simp⟩
  | play h hp hv e ih =>
    rw [play_eq] at e
    obtain ⟨l, e1, e⟩ := bind_eq_ok e
    obtain ⟨s, e2, e⟩ := bind_eq_ok e
    cases e
    refine ⟨ih.board.move hp hv e2, ?_⟩
    intro b hb
    rcases historyInsert_mem e1 with h' | h'
    · rw [h'] at hb; obtain ⟨m', a, b⟩ := ih.history b hb; exact ⟨m', by omega, b⟩
    · rw [h'] at hb
      rcases List.mem_append.1 hb with hb | hb
      · obtain ⟨m', a, b⟩ := ih.history b hb; exact ⟨m', by omega, b⟩
      · rw [List.mem_singleton] at hb; subst hb; exact ⟨_, by omega, ih.board⟩
  | pass h e ih =>
    unfold Game.play at e
    obtain ⟨_, _, e⟩ := bind_eq_ok e
    cases e; exact ⟨ih.board, ih.history⟩
  | resign h e ih => unfold Game.play at e; cases e; exact ⟨ih.board, ih.history⟩
  | resume h ih => exact ⟨ih.board, ih.history⟩
  | setKomi h ih => exact ⟨ih.board, ih.history⟩

theorem Reach.inv {dbg : Bool} {n : Dim} {m : Nat} {g : Game} (h : Reach dbg n m g) : Inv n g.goban := h.spec.board.inv.1

end Model
