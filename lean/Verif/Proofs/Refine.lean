import Verif.Proofs.Eye
/-!
# The game refines the abstract game of `Spec.Game`
-/

namespace Model
open Spec (OnBoard Adj Linked HasLiberty NoDead place SameOn Pos Suicide State Call Answer Forbidden)

theorem Safe.bind {α β} {full : Prop} {x : M α} {f : α → M β} {P : α → Prop} {Q : β → Prop} (h : Safe full x P)
    (hf : ∀ a, P a → Safe full (f a) Q) : Safe full (x >>= f) Q := by
  rcases h with ⟨a, e, ha⟩ | ⟨e, ha⟩
  · rw [e, ok_bind]; exact hf a ha
  · exact Or.inr ⟨by rw [e]; rfl, ha⟩

theorem Safe.weaken {α} {f f' : Prop} {x : M α} {P : α → Prop} (h : Safe f x P) (hi : f → f') : Safe f' x P :=
  h.imp_right (fun h => ⟨h.1, hi h.2⟩)

theorem Safe.ok {α} {full : Prop} {a : α} {P : α → Prop} (h : P a) : Safe full (.ok a) P := Or.inl ⟨a, rfl, h⟩

theorem Safe.mono {α} {full : Prop} {x : M α} {P Q : α → Prop} (h : Safe full x P) (hi : ∀ a, P a → Q a) : Safe full x Q := by
  rcases h with ⟨a, e, ha⟩ | h
  · exact Or.inl ⟨a, e, hi a ha⟩
  · exact Or.inr h

theorem Safe.of_ok {α} {full : Prop} {x : M α} {P : α → Prop} {a : α} (h : Safe full x P) (e : x = .ok a) : P a := by
  rcases h with ⟨b, e', hb⟩ | ⟨e', _⟩
  · rw [e] at e'; cases e'; exact hb
  · rw [e] at e'; cases e'

theorem Safe.total {α} {full : Prop} {x : M α} {P : α → Prop} (h : Safe full x P) (hn : ¬ full) : ∃ a, x = .ok a ∧ P a :=
  h.resolve_right (fun h' => hn h'.2)

/-- The group table of the game cannot take another group. -/
def Game.Full (g : Game) : Prop := g.goban.chains.length = 65535

/-- Boards and positions agree one by one. -/
def Matches (n : Dim) : List Goban → List Pos → Prop
  | [], [] => True
  | b :: bs, p :: ps => Inv n b ∧ SameOn n b.view p ∧ Matches n bs ps
  | _, _ => False

theorem Matches.inv {n : Dim} : ∀ {bs : List Goban} {ps : List Pos}, Matches n bs ps → ∀ b ∈ bs, Inv n b
  | [], _, _, b, hb => by cases hb
  | x :: bs, [], h, b, hb => by cases h
  | x :: bs, p :: ps, h, b, hb => by
    rcases List.mem_cons.1 hb with rfl | hb
    · exact h.1
    · exact Matches.inv h.2.2 b hb

theorem Matches.length {n : Dim} : ∀ {bs : List Goban} {ps : List Pos}, Matches n bs ps → bs.length = ps.length
  | [], [], _ => rfl
  | [], _ :: _, h => by cases h
  | _ :: _, [], h => by cases h
  | x :: bs, p :: ps, h => by rw [List.length_cons, List.length_cons, h.2.2.length]

theorem Matches.exists {n : Dim} {q : Pos} : ∀ {bs : List Goban} {ps : List Pos}, Matches n bs ps →
    ((∃ b ∈ bs, SameOn n b.view q) ↔ ∃ p ∈ ps, SameOn n p q)
  | [], [], _ => by simp
  | [], _ :: _, h => by cases h
  | _ :: _, [], h => by cases h
  | x :: bs, p :: ps, h => by
    have ih := h.2.2.exists (q := q)
    simp only [List.mem_cons, exists_eq_or_imp]
    rw [ih, sameOn_congr h.2.1 (SameOn.refl q)]

theorem Matches.append {n : Dim} {b : Goban} {p : Pos} (hb : Inv n b) (hp : SameOn n b.view p) :
    ∀ {bs : List Goban} {ps : List Pos}, Matches n bs ps → Matches n (bs ++ [b]) (ps ++ [p])
  | [], [], _ => ⟨hb, hp, trivial⟩
  | [], _ :: _, h => by cases h
  | _ :: _, [], h => by cases h
  | x :: bs, q :: ps, h => ⟨h.1, h.2.1, h.2.2.append hb hp⟩

open Classical in
theorem firsts_append {n : Dim} (l : List Pos) (p : Pos) : Spec.firsts n (l ++ [p]) =
    if ∃ q ∈ Spec.firsts n l, SameOn n q p then Spec.firsts n l else Spec.firsts n l ++ [p] := by
  unfold Spec.firsts
  rw [List.foldl_append]
  rfl

theorem mem_firsts {n : Dim} {p : Pos} {l : List Pos} : (∃ q ∈ Spec.firsts n l, SameOn n q p) ↔ ∃ q ∈ l, SameOn n q p := by
  suffices h : ∀ (l : List Pos), (∃ q ∈ Spec.firsts n l.reverse, SameOn n q p) ↔ ∃ q ∈ l.reverse, SameOn n q p by
    have := h l.reverse
    rwa [List.reverse_reverse] at this
  intro l
  induction l with
  | nil => simp [Spec.firsts]
  | cons x l ih =>
    rw [List.reverse_cons, firsts_append]
    have h2 : (∃ q ∈ l.reverse ++ [x], SameOn n q p) ↔ (∃ q ∈ l.reverse, SameOn n q p) ∨ SameOn n x p := by
      simp only [List.mem_append, List.mem_singleton, or_and_right, exists_or, exists_eq_left]
    rw [h2]
    split
    · rename_i hx
      rw [ih]
      constructor
      · exact Or.inl
      · rintro (h | h)
        · exact h
        · obtain ⟨q, hq, hs⟩ := hx
          exact ih.1 ⟨q, hq, SameOn.trans hs h⟩
    · simp only [List.mem_append, List.mem_singleton, or_and_right, exists_or, exists_eq_left]
      rw [ih]

/-- The game `g` is in the abstract state `s`; `o` is the outcome the game was created with. -/
structure Sim (dbg : Bool) (n : Dim) (m : Nat) (o : Option EndGame) (g : Game) (s : State) : Prop where
  board : Board dbg n m g.goban
  hist : Matches n g.history (Spec.firsts n s.played)
  pos : SameOn n g.goban.view s.pos
  noDead : NoDead n s.pos
  turn : g.turn = s.turn
  passes : g.passes = s.passes
  prisoners : g.prisoners = s.prisoners
  outcome : g.outcome = (match s.resigned with
    | some c => some (.winnerByResign c)
    | none => o)
  ko : ∀ q, g.koPoint = some q ↔ ∃ b, s.before = some b ∧ OnBoard n q ∧
    ∀ r, OnBoard n r → ((b r = some s.turn ∧ s.pos r = none) ↔ r = q)
  bef : ∀ b, s.before = some b → b ∈ s.played ∧ NoDead n b ∧
    ∃ mv, OnBoard n mv ∧ b mv = none ∧ SameOn n s.pos (Spec.play n (!g.rule.flagIllegal.suicide) b mv s.turn.opp) ∧
      (g.rule.flagIllegal.suicide = true → ¬ Suicide n b mv s.turn.opp)

variable {dbg : Bool} {n : Dim} {m : Nat} {o : Option EndGame} {g : Game} {s : State}

theorem Sim.inv (h : Sim dbg n m o g s) : Inv n g.goban := h.board.inv.1

theorem Sim.notFull (h : Sim dbg n m o g s) (hm : m < 65535) : ¬ g.Full := by
  have := h.board.inv.2
  unfold Game.Full; omega

theorem Sim.full (h : Sim dbg n m o g s) (hf : g.Full) : 65535 ≤ m := by
  have := h.board.inv.2
  unfold Game.Full at hf; omega

theorem Sim.noDead' (h : Sim dbg n m o g s) : NoDead n g.goban.view := (noDead_congr h.pos).2 h.noDead

theorem Sim.histInv (h : Sim dbg n m o g s) : ∀ b ∈ g.history, Inv n b := h.hist.inv

/-! ### The checks -/

theorem captures_iff_after {pos : Pos} {p : Coord} {c : Color} : Spec.Captures n pos p c ↔
    ∃ q, OnBoard n q ∧ pos q = some c.opp ∧ after n pos p c q = none := Iff.rfl

theorem Sim.checkSuicide (h : Sim dbg n m o g s) {p : Coord} (hp : OnBoard n p) (he : s.pos p = none) :
    ∃ b, g.checkSuicide dbg { coord := p, color := g.turn } = .ok b ∧ (b = true ↔ Suicide n s.pos p s.turn) := by
  obtain ⟨b, e, hb⟩ := checkSuicide_ok (dbg := dbg) (c := g.turn) h.inv h.noDead' hp (by rw [h.pos p hp]; exact he)
  exact ⟨b, e, by rw [hb, suicide_congr h.pos hp, h.turn]⟩

theorem Sim.willCapture (h : Sim dbg n m o g s) {p : Coord} (hp : OnBoard n p) (he : s.pos p = none) :
    ∃ b, g.willCapture dbg p = .ok b ∧ (b = true ↔ Spec.Captures n s.pos p s.turn) := by
  obtain ⟨b, e, hb⟩ := willCapture_ok (dbg := dbg) h.inv h.noDead' hp (by rw [h.pos p hp]; exact he)
  exact ⟨b, e, by rw [hb, ← captures_iff_after, captures_congr h.pos, h.turn]⟩

theorem Sim.checkEye (h : Sim dbg n m o g s) {p : Coord} (hp : OnBoard n p) :
    ∃ b, g.checkEye dbg { coord := p, color := g.turn } = .ok b ∧ (b = true ↔ Spec.Eye n s.pos s.turn p) := by
  obtain ⟨b, e, hb⟩ := checkEye_ok (dbg := dbg) (c := g.turn) h.inv hp
  exact ⟨b, e, by rw [hb, eye_congr h.pos hp, h.turn]⟩

theorem removeDead_eq_none {pos : Pos} {c : Color} {q : Coord} (h : Spec.removeDead n pos c q = none) :
    pos q = none ∨ pos q = some c := by
  unfold Spec.removeDead at h
  split at h
  · rename_i h'; exact Or.inr h'.1
  · exact Or.inl h

/-- A play that captures is a `Spec.play` whatever the suicide switch. -/
theorem play_capture {pos : Pos} {p : Coord} {c : Color} (sa : Bool) (hd : NoDead n pos) (hp : OnBoard n p) (he : pos p = none)
    (hc : Spec.Captures n pos p c) : SameOn n (Spec.play n sa pos p c) (after n pos p c) :=
  play_eq_after sa hd hp he (not_suicide_of_capture hd hp he hc)

theorem libAt_congr {a b : Pos} (h : SameOn n a b) {q r : Coord} (hq : OnBoard n q) : LibAt n a q r ↔ LibAt n b q r := by
  unfold LibAt
  constructor
  · rintro ⟨h1, h2, q', h3, h4⟩; exact ⟨h1, by rw [← h r h1]; exact h2, q', linked_congr h hq h3, h4⟩
  · rintro ⟨h1, h2, q', h3, h4⟩; exact ⟨h1, by rw [h r h1]; exact h2, q', linked_congr (SameOn.symm h) hq h3, h4⟩

/-- `check_ko` is the immediate recapture rule, for plays that are not suicide. -/
theorem Sim.checkKo (h : Sim dbg n m o g s) {p : Coord} (hp : OnBoard n p) (he : s.pos p = none) :
    ∃ b, g.checkKo dbg { coord := p, color := g.turn } = .ok b ∧
      (¬ Suicide n s.pos p s.turn → ∀ sa, (b = true ↔ Spec.Ko n sa s p)) := by
  obtain ⟨b, e, hb⟩ := checkKo_ok (dbg := dbg) (c := g.turn) h.inv hp (by rw [h.pos p hp]; exact he)
  refine ⟨b, e, ?_⟩
  intro hns sa
  rw [hb, h.ko]
  unfold Spec.Ko
  cases hbef : s.before with
  | none => simp
  | some b0 =>
    obtain ⟨_, hd0, mv, hm, hem, hplay, hns0⟩ := h.bef b0 hbef
    have hpl := play_eq_after (c := s.turn) sa h.noDead hp he hns
    by_cases hcap : Spec.Captures n b0 mv s.turn.opp
    · have hpos : SameOn n s.pos (after n b0 mv s.turn.opp) := SameOn.trans hplay (play_capture _ hd0 hm hem hcap)
      have hcap' : ∃ q, OnBoard n q ∧ b0 q = some s.turn.opp.opp ∧ after n b0 mv s.turn.opp q = none := hcap
      have key := ko_iff (m := mv) (p := p) hd0 hm hem hp (by rw [← hpos p hp]; exact he) hcap'
        (by rw [Color.opp_opp, ← suicide_congr hpos hp]; exact hns)
      rw [Color.opp_opp] at key
      have h2 : SameOn n (Spec.play n sa s.pos p s.turn) b0 ↔ SameOn n (after n (after n b0 mv s.turn.opp) p s.turn) b0 :=
        sameOn_congr (SameOn.trans hpl (after_congr hpos p s.turn)) (SameOn.refl _)
      have h3 : (∃ b, some b0 = some b ∧ SameOn n (Spec.play n sa s.pos p s.turn) b) ↔ SameOn n (Spec.play n sa s.pos p s.turn) b0 :=
        ⟨fun ⟨b, e1, e2⟩ => by cases e1; exact e2, fun h => ⟨b0, rfl, h⟩⟩
      have h4 : (∃ b, some b0 = some b ∧ OnBoard n p ∧ ∀ r, OnBoard n r → ((b r = some s.turn ∧ s.pos r = none) ↔ r = p)) ↔
          ∀ r, OnBoard n r → ((b0 r = some s.turn ∧ after n b0 mv s.turn.opp r = none) ↔ r = p) := by
        constructor
        · rintro ⟨b, e1, _, e2⟩ r hr
          cases e1
          rw [← hpos r hr]; exact e2 r hr
        · intro h'
          exact ⟨b0, rfl, hp, fun r hr => by rw [hpos r hr]; exact h' r hr⟩
      rw [h3, h2, key, h4]
      apply and_congr_right
      intro _
      have hv : SameOn n g.goban.view (after n b0 mv s.turn.opp) := SameOn.trans h.pos hpos
      constructor
      · intro hall t hadj htb hne hat u hu
        exact hall t hadj htb (by rw [hv t htb]; exact hne) (fun r hr => hat r ((libAt_congr hv htb).1 hr)) u
          (linked_congr (SameOn.symm hv) htb hu)
      · intro hall t hadj htb hne hat u hu
        exact hall t hadj htb (by rw [← hv t htb]; exact hne) (fun r hr => hat r ((libAt_congr hv htb).2 hr)) u
          (linked_congr hv htb hu)
    · -- nothing was captured: no ko point, and the position before cannot be restored
      have hno : ¬ ∃ r, OnBoard n r ∧ b0 r = some s.turn ∧ s.pos r = none := by
        rintro ⟨r, hr, h1, h2⟩
        apply hcap
        refine ⟨r, hr, by rw [Color.opp_opp]; exact h1, ?_⟩
        rw [hplay r hr] at h2
        have hne : r ≠ mv := by rintro rfl; rw [hem] at h1; cases h1
        unfold Spec.play at h2
        split at h2
        · -- own removal cannot remove a stone of the other colour
          rcases removeDead_eq_none h2 with h5 | h5
          · exact h5
          · rcases removeDead_sub (n := n) (pos := place b0 mv s.turn.opp) (c := s.turn.opp.opp) r with h7 | h7
            · exact h7
            · rw [h7, place_ne hne, h1] at h5
              exact absurd h5 some_ne_opp
        · exact h2
      constructor
      · rintro ⟨⟨b1, e1, _, h1⟩, _⟩
        cases e1
        exact absurd ⟨p, hp, (h1 p hp).2 rfl⟩ hno
      · rintro ⟨b1, e1, h1⟩
        cases e1
        exfalso
        have h2 := h1 p hp
        rw [hpl p hp, after_self] at h2
        exact hno ⟨p, hp, h2.symm, he⟩

theorem playForVerification_eq {p : Coord} : g.playForVerification dbg p =
    (do let s ← g.goban.move dbg g.rule.flagIllegal.suicide p g.turn; .ok s.goban) := by
  unfold Game.playForVerification Goban.move
  cases g.goban.pushWthFeedback dbg p g.turn with
  | error e => rfl
  | ok f => rfl

/-- `play_for_verification` shows the position of the rules for capturing plays. -/
theorem Sim.verification (h : Sim dbg n m o g s) {p : Coord} (hp : OnBoard n p) (he : s.pos p = none) :
    Safe g.Full (g.playForVerification dbg p) (fun b => Inv n b ∧
      (¬ Suicide n s.pos p s.turn → SameOn n b.view (after n s.pos p s.turn)) ∧
      SameOn n b.view (Spec.play n g.rule.flagIllegal.suicide s.pos p s.turn)) := by
  have he' : g.goban.view p = none := by rw [h.pos p hp]; exact he
  rw [playForVerification_eq]
  apply Safe.bind (move_total (dbg := dbg) (suicide := g.rule.flagIllegal.suicide) (c := g.turn) h.inv hp he')
  intro c hc
  have hview : SameOn n c.goban.view (Spec.play n g.rule.flagIllegal.suicide s.pos p s.turn) := by
    refine SameOn.trans hc.view ?_
    rw [h.turn]
    exact SameOn.trans (playLocal_eq_play _ h.noDead' hp he') (play_congr h.pos _ _ _)
  refine Safe.ok ⟨hc.inv, ?_, hview⟩
  intro hns
  exact SameOn.trans hview (play_eq_after _ h.noDead hp he hns)

theorem Sim.checkSuperKo (h : Sim dbg n m o g s) {p : Coord} (hp : OnBoard n p) (he : s.pos p = none) (sa : Bool) :
    Safe g.Full (g.checkSuperKo dbg { coord := p, color := g.turn }) (fun b => (b = true ↔ Spec.SuperKoSeen n sa s p)) := by
  unfold Game.checkSuperKo Spec.SuperKoSeen
  rw [h.hist.length]
  split
  · rename_i hl
    exact Safe.ok (by simp; intro h'; omega)
  · rename_i hl
    obtain ⟨bc, ec, hbc⟩ := h.willCapture hp he
    rw [ec, ok_bind]
    cases bc with
    | false =>
      refine Safe.ok ?_
      simp only [Bool.false_eq_true, false_iff] at hbc ⊢
      intro h'; exact hbc h'.2.1
    | true =>
      have hcap := hbc.1 rfl
      have hns := not_suicide_of_capture h.noDead hp he hcap
      rw [if_neg (by simp)]
      apply Safe.bind (h.verification hp he)
      rintro v ⟨hvi, hv, _⟩
      obtain ⟨bk, ek, hk⟩ := h.checkKo hp he
      obtain ⟨r, er, hr⟩ := historyContains_ok hvi g.history h.histInv
      rw [ek, ok_bind]
      have hsk : Spec.SuperKo n sa s p ↔ r = true := by
        rw [hr, h.hist.exists, mem_firsts]
        unfold Spec.SuperKo
        have hw : SameOn n (Spec.play n sa s.pos p s.turn) v.view :=
          SameOn.trans (play_eq_after _ h.noDead hp he hns) (SameOn.symm (hv hns))
        constructor
        · rintro ⟨q, h1, h2⟩; exact ⟨q, h1, SameOn.symm ((sameOn_congr hw (SameOn.refl q)).1 h2)⟩
        · rintro ⟨q, h1, h2⟩; exact ⟨q, h1, (sameOn_congr hw (SameOn.refl q)).2 (SameOn.symm h2)⟩
      cases bk with
      | true =>
        refine Safe.ok ?_
        simp only [true_iff]
        refine ⟨by omega, hcap, ?_⟩
        obtain ⟨b, h1, h2⟩ := (hk hns sa).1 rfl
        exact ⟨b, (h.bef b h1).1, h2⟩
      | false =>
        refine Or.inl ⟨r, by rw [if_neg (by simp)]; exact er, ?_⟩
        rw [hsk]
        constructor
        · intro h'; exact ⟨by omega, hcap, h'⟩
        · intro h'; exact h'.2.2

/-! ### check_point -/

open Classical in
/-- The refusal of a play on an empty point. -/
noncomputable def refusal (n : Dim) (r : IllegalRules) (s : State) (p : Coord) : Option PlayError :=
  if r.suicide = true ∧ Suicide n s.pos p s.turn then some .suicide
  else if r.ko = true ∧ Spec.Ko n (!r.suicide) s p then some .ko
  else if r.fillEye = true ∧ Spec.Eye n s.pos s.turn p then some .fillEye
  else if r.superko = true ∧ Spec.SuperKoSeen n (!r.suicide) s p then some .ko
  else none

theorem checkPointBy_eq {c : Coord} {r : IllegalRules} {bs bk be : Bool}
    (h0 : g.goban.getColor c = .ok none)
    (h1 : g.checkSuicide dbg { coord := c, color := g.turn } = .ok bs)
    (h2 : g.checkKo dbg { coord := c, color := g.turn } = .ok bk)
    (h3 : g.checkEye dbg { coord := c, color := g.turn } = .ok be) :
    g.checkPointBy dbg c r = (if (r.suicide && bs) = true then .ok (some .suicide)
      else if (r.ko && bk) = true then .ok (some .ko)
      else if (r.fillEye && be) = true then .ok (some .fillEye)
      else if r.superko = true then do
        let b ← g.checkSuperKo dbg { coord := c, color := g.turn }
        .ok (if b = true then some .ko else none)
      else .ok none) := by
  unfold Game.checkPointBy
  dsimp only
  rw [h0, ok_bind]
  simp only [Option.isSome_none, Bool.false_eq_true, if_false]
  rw [h1, h2, h3]
  have hx : ∀ (x : M Bool), (do if ← x then .ok (some PlayError.ko) else .ok none : M (Option PlayError)) =
      (do let b ← x; .ok (if b = true then some .ko else none)) := by
    intro x
    cases x with
    | error e => rfl
    | ok b => cases b <;> rfl
  obtain ⟨rk, rq, rs, re⟩ := r
  cases rs <;> cases rk <;> cases re <;> cases rq <;> cases bs <;> cases bk <;> cases be <;> first | rfl | exact hx _

theorem Sim.checkPointBy_occupied (h : Sim dbg n m o g s) {p : Coord} (hp : OnBoard n p) (he : s.pos p ≠ none) (r : IllegalRules) :
    g.checkPointBy dbg p r = .ok (some .pointNotEmpty) := by
  unfold Game.checkPointBy
  dsimp only
  rw [h.inv.getColor_view hp, ok_bind, h.pos p hp]
  cases hc : s.pos p with
  | none => exact absurd hc he
  | some d => rfl

open Classical in
theorem Sim.checkPointBy (h : Sim dbg n m o g s) {p : Coord} (hp : OnBoard n p) (he : s.pos p = none)
    (r : IllegalRules) (hr : r.suicide = true ∨ r.ko = false ∨ ¬ Suicide n s.pos p s.turn) :
    Safe g.Full (g.checkPointBy dbg p r) (fun e => e = refusal n r s p) := by
  obtain ⟨bs, e1, hs⟩ := h.checkSuicide hp he
  obtain ⟨bk, e2, hk⟩ := h.checkKo hp he
  obtain ⟨be, e3, hy⟩ := h.checkEye hp
  have e0 : g.goban.getColor p = .ok none := by rw [h.inv.getColor_view hp, h.pos p hp, he]
  rw [checkPointBy_eq e0 e1 e2 e3]
  unfold refusal
  rw [← hs, ← hy]
  by_cases h1 : r.suicide = true ∧ bs = true
  · rw [if_pos (by simp [h1]), if_pos h1]; exact Safe.ok rfl
  · rw [if_neg (by simpa using h1), if_neg h1]
    have hkk : (r.ko = true ∧ Spec.Ko n (!r.suicide) s p) ↔ (r.ko = true ∧ bk = true) := by
      apply and_congr_right
      intro hko
      rcases hr with hr | hr | hr
      · rw [hk (fun h' => h1 ⟨hr, hs.2 h'⟩)]
      · rw [hr] at hko; cases hko
      · rw [hk hr]
    rw [if_congr hkk rfl rfl]
    by_cases h2 : r.ko = true ∧ bk = true
    · rw [if_pos (by simp [h2]), if_pos h2]; exact Safe.ok rfl
    rw [if_neg (by simpa using h2), if_neg h2]
    by_cases h3 : r.fillEye = true ∧ be = true
    · rw [if_pos (by simp [h3]), if_pos h3]; exact Safe.ok rfl
    rw [if_neg (by simpa using h3), if_neg h3]
    by_cases h4 : r.superko = true
    · rw [if_pos h4]
      apply Safe.bind (h.checkSuperKo hp he (!r.suicide))
      intro b hb
      refine Safe.ok ?_
      rw [← hb]
      simp only [h4, true_and]
    · rw [if_neg h4, if_neg (fun h' => h4 h'.1)]; exact Safe.ok rfl

theorem Sim.checkPointBy_total (h : Sim dbg n m o g s) {p : Coord} (hp : OnBoard n p) (r : IllegalRules) :
    Safe g.Full (g.checkPointBy dbg p r) (fun _ => True) := by
  by_cases he : s.pos p = none
  · obtain ⟨bs, e1, hs⟩ := h.checkSuicide hp he
    obtain ⟨bk, e2, hk⟩ := h.checkKo hp he
    obtain ⟨be, e3, hy⟩ := h.checkEye hp
    have e0 : g.goban.getColor p = .ok none := by rw [h.inv.getColor_view hp, h.pos p hp, he]
    rw [checkPointBy_eq e0 e1 e2 e3]
    split
    · exact Safe.ok trivial
    split
    · exact Safe.ok trivial
    split
    · exact Safe.ok trivial
    split
    · exact Safe.bind (h.checkSuperKo hp he true) (fun _ _ => Safe.ok trivial)
    · exact Safe.ok trivial
  · rw [h.checkPointBy_occupied hp he r]; exact Safe.ok trivial

/-! ### One step -/

theorem removed_eq {sa : Bool} {b : Goban} {p : Coord} {c : Color} {cs : Goban.Captures} {pos : Pos} (hI : Inv n b)
    (hc : MoveSpec n b sa p c cs) (hp : OnBoard n p) (he : pos p = none) (hv : SameOn n b.view pos)
    (hv' : SameOn n cs.goban.view (Spec.play n sa pos p c)) (x : Color) :
    removedOf cs.removed x = Spec.vanished n (place pos p c) (Spec.play n sa pos p c) x := by
  have h1 := hc.cnt x
  rw [cnt_eq_count hI, cnt_eq_count hc.inv, count_congr hv, count_congr hv'] at h1
  have h2 := count_place (c := c) hp he x
  have h3 := count_vanished (n := n) (a := place pos p c) (b := Spec.play n sa pos p c) (fun q _ => play_sub q) x
  omega

/-- Playing a stone on an empty point, when suicide is allowed or the play is not suicide. -/
theorem Sim.play (h : Sim dbg n m o g s) {x y : Nat} (hp : OnBoard n (x, y)) (he : s.pos (x, y) = none)
    (hns : g.rule.flagIllegal.suicide = true → ¬ Suicide n s.pos (x, y) s.turn) :
    Safe g.Full (g.play dbg (.play x y)) (fun g' =>
      Sim dbg n (m + 1) o g' (Spec.apply n g.rule.flagIllegal.forbidden s (.play (x, y))) ∧ g'.rule = g.rule) := by
  have he' : g.goban.view (x, y) = none := by rw [h.pos _ hp]; exact he
  rw [play_eq]
  obtain ⟨l', el, hl⟩ := historyInsert_ok h.inv g.history h.histInv
  rw [el, ok_bind]
  rcases move_total (dbg := dbg) (suicide := !g.rule.flagIllegal.suicide) (c := g.turn) h.inv hp he' with ⟨c, e, hc⟩ | ⟨e, hl⟩
  swap
  · rw [e]; exact Or.inr ⟨rfl, hl⟩
  have hview : SameOn n c.goban.view (Spec.play n (!g.rule.flagIllegal.suicide) s.pos (x, y) s.turn) := by
    refine SameOn.trans hc.view ?_
    rw [h.turn]
    exact SameOn.trans (playLocal_eq_play _ h.noDead' hp he') (play_congr h.pos _ _ _)
  have hc' : MoveSpec n g.goban (!g.rule.flagIllegal.suicide) (x, y) s.turn c := by rw [← h.turn]; exact hc
  have hrem := removed_eq h.inv hc' hp he h.pos hview
  rw [e, ok_bind]
  refine Safe.ok ⟨?_, rfl⟩
  refine ⟨h.board.move hp ((getColor_none h.inv hp).2 he') e, ?_, hview, ?_, ?_, rfl, ?_, h.outcome, ?_, ?_⟩
  · -- history
    show Matches n l' (Spec.firsts n (s.played ++ [s.pos]))
    rw [firsts_append]
    have hex : (∃ b ∈ g.history, SameOn n b.view g.goban.view) ↔ ∃ q ∈ Spec.firsts n s.played, SameOn n q s.pos := by
      rw [h.hist.exists]
      constructor
      · rintro ⟨q, h1, h2⟩; exact ⟨q, h1, SameOn.trans h2 h.pos⟩
      · rintro ⟨q, h1, h2⟩; exact ⟨q, h1, SameOn.trans h2 (SameOn.symm h.pos)⟩
    rcases hl with ⟨rfl, h1⟩ | ⟨rfl, h1⟩
    · rw [if_pos (hex.1 h1)]; exact h.hist
    · rw [if_neg (fun h' => h1 (hex.2 h'))]; exact h.hist.append h.inv h.pos
  · apply noDead_play _ h.noDead hp he
    show (!g.rule.flagIllegal.suicide) = true ∨ _
    cases hs : g.rule.flagIllegal.suicide
    · exact Or.inl rfl
    · exact Or.inr (hns hs)
  · show g.turn.opp = s.turn.opp
    rw [h.turn]
  · show (g.prisoners.1 + c.removed.1, g.prisoners.2 + c.removed.2) = _
    rw [h.prisoners]
    show (_, _) = (s.prisoners.1 + _, s.prisoners.2 + _)
    rw [Prod.mk.injEq]
    exact ⟨congrArg _ (hrem .white), congrArg _ (hrem .black)⟩
  · intro q
    show c.ko = some q ↔ ∃ b, some s.pos = some b ∧ OnBoard n q ∧
      ∀ r, OnBoard n r → ((b r = some s.turn.opp ∧ Spec.play n (!g.rule.flagIllegal.suicide) s.pos (x, y) s.turn r = none) ↔ r = q)
    rw [hc'.ko]
    constructor
    · rintro ⟨h1, h2⟩
      refine ⟨_, rfl, h1, ?_⟩
      intro r hr
      rw [← h.pos r hr, ← hview r hr]
      exact h2 r hr
    · rintro ⟨b, e1, h1, h2⟩
      cases e1
      refine ⟨h1, ?_⟩
      intro r hr
      rw [h.pos r hr, hview r hr]
      exact h2 r hr
  · intro b hb
    have hb : some s.pos = some b := hb
    cases hb
    refine ⟨List.mem_append.2 (Or.inr (by simp)), h.noDead, (x, y), hp, he, ?_, ?_⟩
    · show SameOn n (Spec.play n (!g.rule.flagIllegal.suicide) s.pos (x, y) s.turn) (Spec.play n _ s.pos (x, y) s.turn.opp.opp)
      rw [Color.opp_opp]; exact SameOn.refl _
    · show _ → ¬ Suicide n s.pos (x, y) s.turn.opp.opp
      rw [Color.opp_opp]; exact hns

theorem Sim.mono (h : Sim dbg n m o g s) {m' : Nat} (hb : Board dbg n m' g.goban) : Sim dbg n m' o g s :=
  { h with board := hb }

theorem Sim.pass (h : Sim dbg n m o g s) (hps : s.passes < 2) :
    ∃ g', g.play dbg .pass = .ok g' ∧ Sim dbg n m o g' (Spec.apply n g.rule.flagIllegal.forbidden s .pass) ∧ g'.rule = g.rule := by
  unfold Game.play
  have hp : g.passes < 2 := by rw [h.passes]; exact hps
  rw [decide_eq_true hp]
  refine ⟨_, rfl, ?_, rfl⟩
  refine ⟨h.board, h.hist, h.pos, h.noDead, ?_, ?_, h.prisoners, h.outcome, ?_, ?_⟩
  · show g.turn.opp = s.turn.opp; rw [h.turn]
  · show g.passes + 1 = s.passes + 1; rw [h.passes]
  · intro q
    constructor
    · intro h'; cases h'
    · rintro ⟨b, h', _⟩; cases h'
  · intro b hb; cases hb

theorem Sim.resign (h : Sim dbg n m o g s) (c : Color) :
    ∃ g', g.play dbg (.resign c) = .ok g' ∧ Sim dbg n m o g' (Spec.apply n g.rule.flagIllegal.forbidden s (.resign c)) ∧
      g'.rule = g.rule := by
  unfold Game.play
  exact ⟨_, rfl, ⟨h.board, h.hist, h.pos, h.noDead, h.turn, h.passes, h.prisoners, rfl, h.ko, h.bef⟩, rfl⟩

theorem Sim.resume (h : Sim dbg n m o g s) : Sim dbg n m o g.resume { s with passes := 0 } :=
  ⟨h.board, h.hist, h.pos, h.noDead, h.turn, rfl, h.prisoners, h.outcome, h.ko, h.bef⟩

theorem Sim.setKomi (h : Sim dbg n m o g s) (k : F32) : Sim dbg n m o (g.setKomi k) s :=
  ⟨h.board, h.hist, h.pos, h.noDead, h.turn, h.passes, h.prisoners, h.outcome, h.ko, h.bef⟩

/-! ### try_play -/

open Classical in
theorem answer_play {r : IllegalRules} {p : Coord} : Spec.answer n r.forbidden s (.play p) =
    if s.passes = 2 then .paused else if s.pos p ≠ none then .occupied else toAnswer (refusal n r s p) := by
  unfold Spec.answer refusal
  dsimp only
  congr 1
  congr 1
  by_cases h1 : r.suicide = true ∧ Suicide n s.pos p s.turn
  · rw [if_pos h1, if_pos (show r.forbidden.suicide = true ∧ _ from h1)]; rfl
  rw [if_neg h1, if_neg (show ¬ (r.forbidden.suicide = true ∧ _) from h1)]
  by_cases h2 : r.ko = true ∧ Spec.Ko n (!r.suicide) s p
  · rw [if_pos h2, if_pos (show r.forbidden.ko = true ∧ Spec.Ko n (!r.forbidden.suicide) s p from h2)]; rfl
  rw [if_neg h2, if_neg (show ¬ (r.forbidden.ko = true ∧ Spec.Ko n (!r.forbidden.suicide) s p) from h2)]
  by_cases h3 : r.fillEye = true ∧ Spec.Eye n s.pos s.turn p
  · rw [if_pos h3, if_pos (show r.forbidden.fillEye = true ∧ _ from h3)]; rfl
  rw [if_neg h3, if_neg (show ¬ (r.forbidden.fillEye = true ∧ _) from h3)]
  by_cases h4 : r.superko = true ∧ Spec.SuperKoSeen n (!r.suicide) s p
  · rw [if_pos h4, if_pos (show r.forbidden.superko = true ∧ Spec.SuperKoSeen n (!r.forbidden.suicide) s p from h4)]; rfl
  rw [if_neg h4, if_neg (show ¬ (r.forbidden.superko = true ∧ Spec.SuperKoSeen n (!r.forbidden.suicide) s p) from h4)]; rfl

theorem step_ok {r : Forbidden} {c : Call} (h : Spec.answer n r s c = .ok) : Spec.step n r s c = (.ok, Spec.apply n r s c) := by
  unfold Spec.step; rw [if_pos h]

theorem step_refused {r : Forbidden} {c : Call} {a : Answer} (h : Spec.answer n r s c = a) (ha : a ≠ .ok) :
    Spec.step n r s c = (a, s) := by
  unfold Spec.step; rw [if_neg (fun h' => ha (h.symm.trans h')), h]

theorem toAnswer_ok {e : Option PlayError} : toAnswer e = .ok ↔ e = none := by
  cases e with
  | none => simp [toAnswer]
  | some e => cases e <;> simp [toAnswer]

theorem refusal_suicide {r : IllegalRules} {p : Coord} (h : refusal n r s p = none) (hs : r.suicide = true) :
    ¬ Suicide n s.pos p s.turn := by
  intro h'
  unfold refusal at h
  rw [if_pos ⟨hs, h'⟩] at h
  cases h

/-- `try_play` at a point, in general: the checks decide, and the checks are the ones of `check_point`. -/
theorem Sim.tryPlay_play (h : Sim dbg n m o g s) {x y : Nat} (hp : OnBoard n (x, y)) :
    g.tryPlay dbg (.play x y) = if s.passes = 2 then .ok (some .gamePaused, g)
      else if s.pos (x, y) ≠ none then .ok (some .pointNotEmpty, g)
      else (do
        let e ← g.checkPointBy dbg (x, y) g.rule.flagIllegal
        match e with
        | some e => .ok (some e, g)
        | none => do
          let g' ← g.play dbg (.play x y)
          .ok (none, g')) := by
  unfold Game.tryPlay
  rw [h.passes]
  split
  · rfl
  · dsimp only
    rw [h.inv.getColor_view hp, ok_bind, h.pos _ hp]
    rfl

/-- One `try_play` is one step of the abstract game. -/
theorem Sim.tryPlay (h : Sim dbg n m o g s) (mv : Move) (hmv : mv.OnBoard n) (hp2 : s.passes ≤ 2)
    (hr : g.rule.flagIllegal.suicide = true ∨ g.rule.flagIllegal.ko = false) :
    Safe g.Full (g.tryPlay dbg mv) (fun r => toAnswer r.1 = (Spec.step n g.rule.flagIllegal.forbidden s mv.call).1 ∧
      (∃ m' ≤ m + 1, Sim dbg n m' o r.2 (Spec.step n g.rule.flagIllegal.forbidden s mv.call).2) ∧ r.2.rule = g.rule ∧
      (Spec.step n g.rule.flagIllegal.forbidden s mv.call).2.passes ≤ 2) := by
  have refused : ∀ (e : PlayError), Spec.answer n g.rule.flagIllegal.forbidden s mv.call = toAnswer (some e) →
      Safe g.Full (.ok (some e, g)) (fun r => toAnswer r.1 = (Spec.step n g.rule.flagIllegal.forbidden s mv.call).1 ∧
      (∃ m' ≤ m + 1, Sim dbg n m' o r.2 (Spec.step n g.rule.flagIllegal.forbidden s mv.call).2) ∧ r.2.rule = g.rule ∧
      (Spec.step n g.rule.flagIllegal.forbidden s mv.call).2.passes ≤ 2) := by
    intro e ha
    have hne : toAnswer (some e) ≠ .ok := fun h' => by rw [toAnswer_ok] at h'; cases h'
    rw [step_refused ha hne]
    exact Safe.ok ⟨rfl, ⟨m, by omega, h⟩, rfl, hp2⟩
  cases mv with
  | pass =>
    have ha : Spec.answer n g.rule.flagIllegal.forbidden s Move.pass.call = if s.passes = 2 then .paused else .ok := rfl
    unfold Game.tryPlay
    rw [h.passes]
    by_cases hps : s.passes = 2
    · rw [if_pos hps] at ha ⊢
      exact refused .gamePaused ha
    · rw [if_neg hps] at ha ⊢
      rw [step_ok ha]
      obtain ⟨g', e, h', hr'⟩ := h.pass (by omega)
      dsimp only
      rw [e, ok_bind]
      refine Safe.ok ⟨rfl, ⟨m, by omega, h'⟩, hr', ?_⟩
      show s.passes + 1 ≤ 2
      omega
  | resign c =>
    have ha : Spec.answer n g.rule.flagIllegal.forbidden s (Move.resign c).call = if s.passes = 2 then .paused else .ok := rfl
    unfold Game.tryPlay
    rw [h.passes]
    by_cases hps : s.passes = 2
    · rw [if_pos hps] at ha ⊢
      exact refused .gamePaused ha
    · rw [if_neg hps] at ha ⊢
      rw [step_ok ha]
      obtain ⟨g', e, h', hr'⟩ := h.resign c
      dsimp only
      rw [e, ok_bind]
      exact Safe.ok ⟨rfl, ⟨m, by omega, h'⟩, hr', hp2⟩
  | play x y =>
    have hp : OnBoard n (x, y) := hmv
    have ha := answer_play (n := n) (s := s) (r := g.rule.flagIllegal) (p := (x, y))
    rw [h.tryPlay_play hp]
    by_cases hps : s.passes = 2
    · rw [if_pos hps] at ha ⊢
      exact refused .gamePaused ha
    rw [if_neg hps] at ha ⊢
    by_cases he : s.pos (x, y) ≠ none
    · rw [if_pos he] at ha ⊢
      exact refused .pointNotEmpty ha
    rw [if_neg he] at ha ⊢
    have he := Classical.not_not.1 he
    apply Safe.bind (h.checkPointBy hp he _ (hr.imp_right Or.inl))
    intro e hf
    cases e with
    | some e =>
      rw [← hf] at ha
      exact refused e ha
    | none =>
      rw [← hf] at ha
      rw [show (Move.play x y).call = .play (x, y) from rfl, step_ok ha]
      apply Safe.bind (h.play hp he (refusal_suicide hf.symm))
      rintro g' ⟨h', hr'⟩
      exact Safe.ok ⟨rfl, ⟨m + 1, by omega, h'⟩, hr', by show 0 ≤ 2; omega⟩

/-- For every rule: a `try_play` either changes nothing, or is the step of the abstract game. -/
theorem Sim.tryPlay_any (h : Sim dbg n m o g s) (mv : Move) (hmv : mv.OnBoard n) (hp2 : s.passes ≤ 2) :
    Safe g.Full (g.tryPlay dbg mv) (fun r => r.2.rule = g.rule ∧ (r.1 ≠ none → r.2 = g) ∧
      (r.1 = none → s.passes < 2 ∧ (Spec.apply n g.rule.flagIllegal.forbidden s mv.call).passes ≤ 2 ∧
        ∃ m' ≤ m + 1, Sim dbg n m' o r.2 (Spec.apply n g.rule.flagIllegal.forbidden s mv.call))) := by
  cases mv with
  | pass =>
    unfold Game.tryPlay
    rw [h.passes]
    by_cases hps : s.passes = 2
    · rw [if_pos hps]
      exact Safe.ok ⟨rfl, fun _ => rfl, fun h => by cases h⟩
    · rw [if_neg hps]
      obtain ⟨g', e, h', hr'⟩ := h.pass (by omega)
      dsimp only
      rw [e, ok_bind]
      exact Safe.ok ⟨hr', fun h => absurd rfl h, fun _ => ⟨by omega, by show s.passes + 1 ≤ 2; omega, m, by omega, h'⟩⟩
  | resign c =>
    unfold Game.tryPlay
    rw [h.passes]
    by_cases hps : s.passes = 2
    · rw [if_pos hps]
      exact Safe.ok ⟨rfl, fun _ => rfl, fun h => by cases h⟩
    · rw [if_neg hps]
      obtain ⟨g', e, h', hr'⟩ := h.resign c
      dsimp only
      rw [e, ok_bind]
      exact Safe.ok ⟨hr', fun h => absurd rfl h, fun _ => ⟨by omega, hp2, m, by omega, h'⟩⟩
  | play x y =>
    have hp : OnBoard n (x, y) := hmv
    rw [h.tryPlay_play hp]
    by_cases hps : s.passes = 2
    · rw [if_pos hps]
      exact Safe.ok ⟨rfl, fun _ => rfl, fun h => by cases h⟩
    rw [if_neg hps]
    by_cases he : s.pos (x, y) ≠ none
    · rw [if_pos he]
      exact Safe.ok ⟨rfl, fun _ => rfl, fun h => by cases h⟩
    rw [if_neg he]
    have he := Classical.not_not.1 he
    have hns : Safe g.Full (g.checkPointBy dbg (x, y) g.rule.flagIllegal)
        (fun e => e = none → g.rule.flagIllegal.suicide = true → ¬ Suicide n s.pos (x, y) s.turn) := by
      by_cases hs : g.rule.flagIllegal.suicide = true
      · refine Safe.mono (h.checkPointBy hp he _ (Or.inl hs)) ?_
        intro e hc hn _
        rw [hn] at hc
        exact refusal_suicide hc.symm hs
      · exact Safe.mono (h.checkPointBy_total hp _) (fun _ _ _ hs' => absurd hs' hs)
    apply Safe.bind hns
    intro e he'
    cases e with
    | some e => exact Safe.ok ⟨rfl, fun _ => rfl, fun h => by cases h⟩
    | none =>
      apply Safe.bind (h.play hp he (he' rfl))
      rintro g' ⟨h', hr'⟩
      exact Safe.ok ⟨hr', fun h => absurd rfl h, fun _ => ⟨by omega, by show 0 ≤ 2; omega, m + 1, by omega, h'⟩⟩

/-! ### From the start of a game -/

theorem Fresh.sim (h : Fresh dbg n m g) (hd : NoDead n g.goban.view) :
    Sim dbg n m g.outcome g (State.start g.goban.view g.turn) := by
  have hs := h.spec
  refine ⟨hs.board, ?_, SameOn.refl _, hd, rfl, hs.passes, hs.prisoners, rfl, ?_, ?_⟩
  · rw [hs.history]; trivial
  · intro q
    rw [hs.ko]
    constructor
    · intro h; cases h
    · rintro ⟨b, h, _⟩; cases h
  · intro b h; cases h

theorem Legal.sim (h : Legal dbg n m g) : ∃ o s m', m' ≤ m ∧ s.passes ≤ 2 ∧ Sim dbg n m' o g s := by
  induction h with
  | fresh hf hd => exact ⟨_, _, _, Nat.le_refl _, Nat.zero_le _, hf.sim hd⟩
  | @tryPlay m g mv e g' h hmv e1 ih =>
    obtain ⟨o, s, m', hm', hps, hs⟩ := ih
    obtain ⟨_, hsame, hok⟩ := (hs.tryPlay_any _ hmv hps).of_ok e1
    by_cases hn : e = none
    · obtain ⟨_, h2, m2, hm2, hs2⟩ := hok hn
      exact ⟨o, _, m2, by omega, h2, hs2⟩
    · rw [show g' = g from hsame hn]
      exact ⟨o, s, m', by omega, hps, hs⟩
  | resume h ih =>
    obtain ⟨o, s, m', hm', hps, hs⟩ := ih
    exact ⟨o, _, m', hm', Nat.zero_le _, hs.resume⟩
  | setKomi h ih =>
    obtain ⟨o, s, m', hm', hps, hs⟩ := ih
    exact ⟨o, s, m', hm', hps, hs.setKomi _⟩

/-! ### Sequences of calls -/

theorem Sim.call (h : Sim dbg n m o g s) (c : GOp) (hc : c.OnBoard n) (hp2 : s.passes ≤ 2)
    (hr : g.rule.flagIllegal.suicide = true ∨ g.rule.flagIllegal.ko = false) :
    Safe g.Full (g.call dbg c) (fun r => toAnswer r.1 = (Spec.step n g.rule.flagIllegal.forbidden s c.call).1 ∧
      (∃ m' ≤ m + 1, Sim dbg n m' o r.2 (Spec.step n g.rule.flagIllegal.forbidden s c.call).2) ∧
      r.2.rule.flagIllegal = g.rule.flagIllegal ∧
      (Spec.step n g.rule.flagIllegal.forbidden s c.call).2.passes ≤ 2) := by
  cases c with
  | try_ mv => exact (h.tryPlay mv hc hp2 hr).mono (fun r h => ⟨h.1, h.2.1, by rw [h.2.2.1], h.2.2.2⟩)
  | resume => exact Safe.ok ⟨rfl, ⟨m, by omega, h.resume⟩, rfl, Nat.zero_le _⟩
  | setKomi k => exact Safe.ok ⟨rfl, ⟨m, by omega, h.setKomi k⟩, rfl, hp2⟩

theorem Sim.call_any (h : Sim dbg n m o g s) (c : GOp) (hc : c.OnBoard n) (hp2 : s.passes ≤ 2) :
    Safe g.Full (g.call dbg c) (fun r => r.2.rule.flagIllegal = g.rule.flagIllegal ∧ (r.1 ≠ none → r.2 = g) ∧
      (r.1 = none → (Spec.apply n g.rule.flagIllegal.forbidden s c.call).passes ≤ 2 ∧
        ∃ m' ≤ m + 1, Sim dbg n m' o r.2 (Spec.apply n g.rule.flagIllegal.forbidden s c.call))) := by
  cases c with
  | try_ mv => exact (h.tryPlay_any mv hc hp2).mono (fun r h => ⟨by rw [h.1], h.2.1, fun e => (h.2.2 e).2⟩)
  | resume => exact Safe.ok ⟨rfl, fun h => absurd rfl h, fun _ => ⟨Nat.zero_le _, m, by omega, h.resume⟩⟩
  | setKomi k => exact Safe.ok ⟨rfl, fun h => absurd rfl h, fun _ => ⟨hp2, m, by omega, h.setKomi k⟩⟩

theorem run_cons {c : GOp} {cs : List GOp} {es : List (Option PlayError)} {g' : Game} (e : g.run dbg (c :: cs) = .ok (es, g')) :
    ∃ r es', g.call dbg c = .ok r ∧ r.2.run dbg cs = .ok (es', g') ∧ es = r.1 :: es' := by
  unfold Game.run at e
  obtain ⟨r, e1, e⟩ := bind_eq_ok e
  obtain ⟨rs, e2, e⟩ := bind_eq_ok e
  injection e with e
  injection e with e3 e4
  subst e3 e4
  exact ⟨r, _, e1, e2, rfl⟩

/-- A sequence of calls that returns is a run of the abstract game. -/
theorem Sim.run : ∀ (cs : List GOp) {m : Nat} {g : Game} {s : State} {es : List (Option PlayError)} {g' : Game},
    Sim dbg n m o g s → s.passes ≤ 2 → (g.rule.flagIllegal.suicide = true ∨ g.rule.flagIllegal.ko = false) →
    (∀ c ∈ cs, c.OnBoard n) → g.run dbg cs = .ok (es, g') →
    es.map toAnswer = (Spec.run n g.rule.flagIllegal.forbidden s (cs.map GOp.call)).1 ∧
      (∃ m' ≤ m + cs.length, Sim dbg n m' o g' (Spec.run n g.rule.flagIllegal.forbidden s (cs.map GOp.call)).2) ∧
      g'.rule.flagIllegal = g.rule.flagIllegal ∧
      (Spec.run n g.rule.flagIllegal.forbidden s (cs.map GOp.call)).2.passes ≤ 2
  | [], m, g, s, es, g', h, hp, _, _, e => by
    cases e
    exact ⟨rfl, ⟨m, by simp, h⟩, rfl, hp⟩
  | c :: cs, m, g, s, es, g', h, hp, hr, hon, e => by
    obtain ⟨r, es', e1, e2, rfl⟩ := run_cons e
    obtain ⟨h3, ⟨m1, h2, h4⟩, h5, h6⟩ := (h.call c (hon c (by simp)) hp hr).of_ok e1
    obtain ⟨r3, ⟨m', r2, r4⟩, r5, r6⟩ := Sim.run cs h4 h6 (by rw [h5]; exact hr) (fun c hc => hon c (by simp [hc])) e2
    rw [h5] at r3 r4 r5 r6
    refine ⟨?_, ⟨m', ?_, r4⟩, r5, r6⟩
    · rw [List.map_cons, List.map_cons, h3, r3]; rfl
    · rw [List.length_cons]; omega

/-- For every rule: the state reached is the abstract state after the accepted calls. -/
theorem Sim.run_any : ∀ (cs : List GOp) {m : Nat} {g : Game} {s : State} {es : List (Option PlayError)} {g' : Game},
    Sim dbg n m o g s → s.passes ≤ 2 → (∀ c ∈ cs, c.OnBoard n) → g.run dbg cs = .ok (es, g') →
    (∃ m' ≤ m + cs.length,
      Sim dbg n m' o g' (((accepted cs es).map GOp.call).foldl (Spec.apply n g.rule.flagIllegal.forbidden) s)) ∧
      g'.rule.flagIllegal = g.rule.flagIllegal ∧
      (((accepted cs es).map GOp.call).foldl (Spec.apply n g.rule.flagIllegal.forbidden) s).passes ≤ 2
  | [], m, g, s, es, g', h, hp, _, e => by
    cases e
    exact ⟨⟨m, by simp, h⟩, rfl, hp⟩
  | c :: cs, m, g, s, es, g', h, hp, hon, e => by
    obtain ⟨⟨e0, g1⟩, es', e1, e2, rfl⟩ := run_cons e
    obtain ⟨h5, hsame, hok⟩ := (h.call_any c (hon c (by simp)) hp).of_ok e1
    by_cases hn : e0 = none
    · obtain ⟨h6, m1, h2, h4⟩ := hok hn
      obtain ⟨⟨m', r2, r4⟩, r5, r6⟩ := Sim.run_any cs h4 h6 (fun c hc => hon c (by simp [hc])) e2
      rw [h5] at r4 r5 r6
      unfold accepted
      rw [if_pos hn]
      exact ⟨⟨m', by rw [List.length_cons]; omega, r4⟩, r5, r6⟩
    · have hs : g1 = g := hsame hn
      subst hs
      obtain ⟨⟨m', r2, r4⟩, r5, r6⟩ := Sim.run_any cs h hp (fun c hc => hon c (by simp [hc])) e2
      unfold accepted
      rw [if_neg hn]
      exact ⟨⟨m', by rw [List.length_cons]; omega, r4⟩, r5, r6⟩

/-- As long as fewer than 65,535 stones have been put, every call returns. -/
theorem Sim.run_total : ∀ (cs : List GOp) {m : Nat} {g : Game} {s : State}, Sim dbg n m o g s → s.passes ≤ 2 →
    (∀ c ∈ cs, c.OnBoard n) → m + cs.length ≤ 65535 → ∃ r, g.run dbg cs = .ok r
  | [], m, g, s, _, _, _, _ => ⟨_, rfl⟩
  | c :: cs, m, g, s, h, hp, hon, hm => by
    rw [List.length_cons] at hm
    obtain ⟨⟨e0, g1⟩, e1, h5, hsame, hok⟩ := (h.call_any (dbg := dbg) c (hon c (by simp)) hp).total (h.notFull (by omega))
    unfold Game.run
    rw [e1, ok_bind]
    by_cases hn : e0 = none
    · obtain ⟨h6, m1, h2, h4⟩ := hok hn
      obtain ⟨r, e⟩ := Sim.run_total cs h4 h6 (fun c hc => hon c (by simp [hc])) (by omega)
      rw [e]; exact ⟨_, rfl⟩
    · have hs : g1 = g := hsame hn
      subst hs
      obtain ⟨r, e⟩ := Sim.run_total cs h hp (fun c hc => hon c (by simp [hc])) (by omega)
      rw [e]; exact ⟨_, rfl⟩

end Model
