import Verif.Props.Tables
/-!
# Groups and the group table as data types: C70
-/

namespace Model

/-! ### The liberties of a group are a set -/

/-- A call on a group that changes its liberties. -/
inductive LibOp where
  | add (i : Nat)
  | remove (i : Nat)
  | addAll (is : List Nat)
  | union (l : Liberties)
  | unionSlice (is : List Nat)

/-- The call made by the code. -/
def LibOp.run (dbg : Bool) (g : Group) : LibOp → M Group
  | .add i => g.addLiberty dbg i
  | .remove i => g.removeLiberty dbg i
  | .addAll is => g.addLiberties dbg is
  | .union l => .ok (g.unionLiberties l)
  | .unionSlice is => g.unionLibertiesSlice is

/-- A sequence of calls. -/
def LibOp.runAll (dbg : Bool) (g : Group) (ops : List LibOp) : M Group := ops.foldlM (fun g op => op.run dbg g) g

/-- The liberties of the group are the numbers in `S`. -/
def Group.Shows (g : Group) (S : Nat → Prop) : Prop :=
  g.liberties.length = 46 ∧ ∀ i, S i ↔ g.containsLiberty i = .ok true

/-- What the call does to a set. -/
def LibOp.effect (S : Nat → Prop) : LibOp → Nat → Prop
  | .add i => fun j => S j ∨ j = i
  | .remove i => fun j => S j ∧ j ≠ i
  | .addAll is => fun j => S j ∨ j ∈ is
  | .union l => fun j => S j ∨ Bits.get j l = .ok true
  | .unionSlice is => fun j => S j ∨ j ∈ is

/-- The call is allowed: the indices fit in the array and, in debug builds, only new liberties are added and only present ones
removed. (`union_liberties` gets an array of the right length by its type.) -/
def LibOp.Fine (dbg : Bool) (S : Nat → Prop) : LibOp → Prop
  | .add i => i < 368 ∧ (dbg = true → ¬ S i)
  | .remove i => i < 368 ∧ (dbg = true → S i)
  | .addAll is => (∀ i ∈ is, i < 368) ∧ (dbg = true → is.Nodup ∧ ∀ i ∈ is, ¬ S i)
  | .union _ => True
  | .unionSlice is => ∀ i ∈ is, i < 368

/-- The arrays given to `union_liberties` have 46 bytes. -/
def LibOp.Typed : LibOp → Prop
  | .union l => l.length = 46
  | _ => True

/-- Nothing but the liberties changed. -/
def Group.SameRest (g g' : Group) : Prop :=
  g'.color = g.color ∧ g'.origin = g.origin ∧ g'.last = g.last ∧ g'.numStones = g.numStones

theorem Group.SameRest.trans {a b c : Group} (h : a.SameRest b) (h' : b.SameRest c) : a.SameRest c :=
  ⟨h'.1.trans h.1, h'.2.1.trans h.2.1, h'.2.2.1.trans h.2.2.1, h'.2.2.2.trans h.2.2.2⟩

theorem Group.Shows.lt {g : Group} {S : Nat → Prop} (h : g.Shows S) {i : Nat} (hi : S i) : i < 368 := by
  have := (h.2 i).1 hi
  rcases Nat.lt_or_ge i 368 with h1 | h1
  · exact h1
  · unfold Group.containsLiberty at this
    rw [(C25_get h.1 i).2 h1] at this
    cases this

theorem Group.Shows.get {g : Group} {S : Nat → Prop} (h : g.Shows S) {i : Nat} (hi : i < 368) :
    ∃ b, Bits.get i g.liberties = .ok b ∧ (b = true ↔ S i) := by
  obtain ⟨b, e⟩ := (C25_get h.1 i).1 hi
  refine ⟨b, e, ?_⟩
  rw [h.2 i]
  unfold Group.containsLiberty
  rw [e]
  simp

theorem addUnchecked_spec {g : Group} {S : Nat → Prop} (h : g.Shows S) (i : Nat) :
    (i < 368 → ∃ g', g.addLibertyUnchecked i = .ok g' ∧ g'.Shows (fun j => S j ∨ j = i) ∧ g.SameRest g') ∧
    (368 ≤ i → g.addLibertyUnchecked i = panic) := by
  unfold Group.addLibertyUnchecked
  constructor
  · intro hi
    obtain ⟨l, e, hl, h1, h2⟩ := (C25_set h.1 true i).1 hi
    rw [e]
    refine ⟨_, rfl, ⟨hl, ?_⟩, rfl, rfl, rfl, rfl⟩
    intro j
    show (S j ∨ j = i) ↔ Bits.get j l = .ok true
    by_cases hj : j = i
    · subst hj; rw [h1]; simp
    · rw [h2 j hj, h.2 j]
      exact ⟨fun h => h.resolve_right hj, Or.inl⟩
  · intro hi
    rw [(C25_set h.1 true i).2 hi]
    rfl

theorem addLiberty_spec (dbg : Bool) {g : Group} {S : Nat → Prop} (h : g.Shows S) (i : Nat) :
    ((i < 368 ∧ (dbg = true → ¬ S i)) → ∃ g', g.addLiberty dbg i = .ok g' ∧ g'.Shows (fun j => S j ∨ j = i) ∧ g.SameRest g') ∧
    (¬ (i < 368 ∧ (dbg = true → ¬ S i)) → g.addLiberty dbg i = panic) := by
  unfold Group.addLiberty
  cases dbg with
  | false =>
    refine ⟨fun hi => (addUnchecked_spec h i).1 hi.1, fun hi => (addUnchecked_spec h i).2 ?_⟩
    by_contra hlt
    exact hi ⟨by omega, by simp⟩
  | true =>
    by_cases hlt : i < 368
    · obtain ⟨b, e, hb⟩ := h.get hlt
      simp only [if_true, e, ok_bind, debugAssert]
      constructor
      · rintro ⟨_, hn⟩
        have : b = false := by cases b with
          | false => rfl
          | true => exact absurd (hb.1 rfl) (hn trivial)
        subst this
        exact (addUnchecked_spec h i).1 hlt
      · intro hn
        have : b = true := by
          cases b with
          | true => rfl
          | false => exact absurd ⟨hlt, fun _ hs => by cases hb.2 hs⟩ hn
        subst this
        rfl
    · simp only [if_true, (C25_get h.1 i).2 (by omega)]
      exact ⟨fun h => absurd h.1 hlt, fun _ => rfl⟩

theorem removeLiberty_spec (dbg : Bool) {g : Group} {S : Nat → Prop} (h : g.Shows S) (i : Nat) :
    ((i < 368 ∧ (dbg = true → S i)) → ∃ g', g.removeLiberty dbg i = .ok g' ∧ g'.Shows (fun j => S j ∧ j ≠ i) ∧ g.SameRest g') ∧
    (¬ (i < 368 ∧ (dbg = true → S i)) → g.removeLiberty dbg i = panic) := by
  unfold Group.removeLiberty
  have hset : (i < 368 → ∃ g', (do let l ← Bits.set false i g.liberties; Except.ok { g with liberties := l } : M Group) = .ok g' ∧
      g'.Shows (fun j => S j ∧ j ≠ i) ∧ g.SameRest g') ∧
      (368 ≤ i → (do let l ← Bits.set false i g.liberties; Except.ok { g with liberties := l } : M Group) = panic) := by
    constructor
    · intro hi
      obtain ⟨l, e, hl, h1, h2⟩ := (C25_set h.1 false i).1 hi
      rw [e]
      refine ⟨_, rfl, ⟨hl, ?_⟩, rfl, rfl, rfl, rfl⟩
      intro j
      show (S j ∧ j ≠ i) ↔ Bits.get j l = .ok true
      by_cases hj : j = i
      · subst hj; rw [h1]; simp
      · rw [h2 j hj, h.2 j]
        exact ⟨fun h => h.1, fun h => ⟨h, hj⟩⟩
    · intro hi
      rw [(C25_set h.1 false i).2 hi]
      rfl
  cases dbg with
  | false =>
    refine ⟨fun hi => hset.1 hi.1, fun hi => hset.2 ?_⟩
    by_contra hlt
    exact hi ⟨by omega, by simp⟩
  | true =>
    by_cases hlt : i < 368
    · obtain ⟨b, e, hb⟩ := h.get hlt
      simp only [if_true, e, ok_bind, debugAssert]
      constructor
      · rintro ⟨_, hn⟩
        have := hb.2 (hn trivial)
        subst this
        exact hset.1 hlt
      · intro hn
        have : b = false := by
          cases b with
          | false => rfl
          | true => exact absurd ⟨hlt, fun _ => hb.1 rfl⟩ hn
        subst this
        rfl
    · simp only [if_true, (C25_get h.1 i).2 (by omega)]
      exact ⟨fun h => absurd h.1 hlt, fun _ => rfl⟩

theorem Group.Shows.congr {g : Group} {S T : Nat → Prop} (h : g.Shows S) (hST : ∀ i, S i ↔ T i) : g.Shows T :=
  ⟨h.1, fun i => (hST i).symm.trans (h.2 i)⟩

theorem addAll_spec (dbg : Bool) : ∀ (is : List Nat) {g : Group} {S : Nat → Prop}, g.Shows S →
    ((LibOp.addAll is).Fine dbg S → ∃ g', g.addLiberties dbg is = .ok g' ∧ g'.Shows (fun j => S j ∨ j ∈ is) ∧ g.SameRest g') ∧
    (¬ (LibOp.addAll is).Fine dbg S → g.addLiberties dbg is = panic)
  | [], g, S, h => by
    refine ⟨fun _ => ⟨g, rfl, h.congr (by simp), rfl, rfl, rfl, rfl⟩, fun hn => absurd ?_ hn⟩
    exact ⟨by simp, fun _ => ⟨by simp, by simp⟩⟩
  | i :: is, g, S, h => by
    have e0 : g.addLiberties dbg (i :: is) = (g.addLiberty dbg i >>= fun g => g.addLiberties dbg is) := rfl
    rw [e0]
    by_cases hi : i < 368 ∧ (dbg = true → ¬ S i)
    · obtain ⟨g1, e1, h1, s1⟩ := (addLiberty_spec dbg h i).1 hi
      rw [e1, ok_bind]
      have ih := addAll_spec dbg is h1
      constructor
      · rintro ⟨ha, hb⟩
        obtain ⟨g', e, h', s'⟩ := ih.1 ⟨fun j hj => ha j (by simp [hj]), fun hd => ⟨(List.nodup_cons.1 (hb hd).1).2, fun j hj => by
          rintro (hs | rfl)
          · exact (hb hd).2 j (by simp [hj]) hs
          · exact (List.nodup_cons.1 (hb hd).1).1 hj⟩⟩
        refine ⟨g', e, h'.congr (fun j => ?_), s1.trans s'⟩
        rw [List.mem_cons, or_assoc]
      · intro hn
        refine ih.2 (fun hf => hn ?_)
        obtain ⟨ha, hb⟩ := hf
        refine ⟨fun j hj => ?_, fun hd => ⟨List.nodup_cons.2 ⟨fun hj => (hb hd).2 i hj (Or.inr rfl), (hb hd).1⟩, fun j hj => ?_⟩⟩
        · rcases List.mem_cons.1 hj with rfl | hj
          · exact hi.1
          · exact ha j hj
        · rcases List.mem_cons.1 hj with rfl | hj
          · exact hi.2 hd
          · exact fun hs => (hb hd).2 j hj (Or.inl hs)
    · rw [(addLiberty_spec dbg h i).2 hi]
      refine ⟨fun hf => absurd ?_ hi, fun _ => rfl⟩
      exact ⟨hf.1 i (by simp), fun hd => (hf.2 hd).2 i (by simp)⟩

theorem unionSlice_spec : ∀ (is : List Nat) {g : Group} {S : Nat → Prop}, g.Shows S →
    ((∀ i ∈ is, i < 368) → ∃ g', g.unionLibertiesSlice is = .ok g' ∧ g'.Shows (fun j => S j ∨ j ∈ is) ∧ g.SameRest g') ∧
    (¬ (∀ i ∈ is, i < 368) → g.unionLibertiesSlice is = panic)
  | [], g, S, h => ⟨fun _ => ⟨g, rfl, h.congr (by simp), rfl, rfl, rfl, rfl⟩, fun hn => absurd (by simp) hn⟩
  | i :: is, g, S, h => by
    have e0 : g.unionLibertiesSlice (i :: is) = (g.addLibertyUnchecked i >>= fun g => g.unionLibertiesSlice is) := rfl
    rw [e0]
    by_cases hi : i < 368
    · obtain ⟨g1, e1, h1, s1⟩ := (addUnchecked_spec h i).1 hi
      rw [e1, ok_bind]
      have ih := unionSlice_spec is h1
      constructor
      · intro ha
        obtain ⟨g', e, h', s'⟩ := ih.1 (fun j hj => ha j (by simp [hj]))
        refine ⟨g', e, h'.congr (fun j => ?_), s1.trans s'⟩
        rw [List.mem_cons, or_assoc]
      · intro hn
        refine ih.2 (fun hf => hn (fun j hj => ?_))
        rcases List.mem_cons.1 hj with rfl | hj
        · exact hi
        · exact hf j hj
    · rw [(addUnchecked_spec h i).2 (by omega)]
      exact ⟨fun hf => absurd (hf i (by simp)) hi, fun _ => rfl⟩

/-- **C70**. A group starts with the liberties it is given, none for `new`. -/
theorem C70_new (c : Color) (stone : Nat) : (Group.new c stone).Shows (fun _ => False) ∧
    ∀ l : Liberties, l.length = 46 → (Group.newWithLiberties c stone l).Shows (fun i => Bits.get i l = .ok true) := by
  refine ⟨⟨Bits.empty_length, fun i => ?_⟩, fun l hl => ⟨hl, fun i => Iff.rfl⟩⟩
  show False ↔ Bits.get i EMPTY_LIBERTIES = .ok true
  rw [get_iff_has, Bits.has_empty]
  simp

/-- **C70**. Each call on the liberties does to the set what its name says, leaves everything else alone, and panics exactly
when an index is outside the array or, in debug builds, when a present liberty is added or an absent one removed. -/
theorem C70_op (dbg : Bool) {g : Group} {S : Nat → Prop} (h : g.Shows S) (op : LibOp) (ht : op.Typed) :
    (op.Fine dbg S → ∃ g', op.run dbg g = .ok g' ∧ g'.Shows (op.effect S) ∧ g.SameRest g') ∧
    (¬ op.Fine dbg S → op.run dbg g = panic) := by
  cases op with
  | add i => exact addLiberty_spec dbg h i
  | remove i => exact removeLiberty_spec dbg h i
  | addAll is => exact addAll_spec dbg is h
  | unionSlice is => exact unionSlice_spec is h
  | union l =>
    refine ⟨fun _ => ⟨_, rfl, ⟨(C25_merge h.1 ht).1, fun i => ?_⟩, rfl, rfl, rfl, rfl⟩, fun hn => absurd trivial hn⟩
    show (S i ∨ Bits.get i l = .ok true) ↔ Bits.get i (Bits.merge g.liberties l) = .ok true
    rw [(C25_merge h.1 ht).2 i, h.2 i]
    rfl

/-- All calls of the sequence are allowed when their turn comes. -/
def LibOp.AllFine (dbg : Bool) : (Nat → Prop) → List LibOp → Prop
  | _, [] => True
  | S, op :: ops => op.Fine dbg S ∧ AllFine dbg (op.effect S) ops

/-- **C70**. The same for every sequence of calls: it returns exactly when each call is allowed in its turn, and then the group
shows the set obtained by the same operations on sets. -/
theorem C70_ops (dbg : Bool) : ∀ (ops : List LibOp) {g : Group} {S : Nat → Prop}, g.Shows S → (∀ op ∈ ops, op.Typed) →
    (LibOp.AllFine dbg S ops → ∃ g', LibOp.runAll dbg g ops = .ok g' ∧ g'.Shows (ops.foldl LibOp.effect S) ∧ g.SameRest g') ∧
    (¬ LibOp.AllFine dbg S ops → LibOp.runAll dbg g ops = panic)
  | [], g, S, h, _ => ⟨fun _ => ⟨g, rfl, h, rfl, rfl, rfl, rfl⟩, fun hn => absurd trivial hn⟩
  | op :: ops, g, S, h, ht => by
    have e0 : LibOp.runAll dbg g (op :: ops) = (op.run dbg g >>= fun g => LibOp.runAll dbg g ops) := rfl
    rw [e0]
    by_cases hf : op.Fine dbg S
    · obtain ⟨g1, e1, h1, s1⟩ := (C70_op dbg h op (ht op (by simp))).1 hf
      rw [e1, ok_bind]
      have ih := C70_ops dbg ops h1 (fun o ho => ht o (by simp [ho]))
      constructor
      · rintro ⟨_, ha⟩
        obtain ⟨g', e, h', s'⟩ := ih.1 ha
        exact ⟨g', e, h', s1.trans s'⟩
      · intro hn
        exact ih.2 (fun ha => hn ⟨hf, ha⟩)
    · rw [(C70_op dbg h op (ht op (by simp))).2 hf]
      exact ⟨fun ha => absurd ha.1 hf, fun _ => rfl⟩

/-- **C70**. The queries: membership, the members in increasing order, their number, whether there is none and whether there is
exactly one. -/
theorem C70_queries {g : Group} {S : Nat → Prop} (h : g.Shows S) :
    (∀ i, i < 368 → ∃ b, g.containsLiberty i = .ok b ∧ (b = true ↔ S i)) ∧
    (∀ i, 368 ≤ i → g.containsLiberty i = panic) ∧
    g.libertiesVec.Pairwise (· < ·) ∧ (∀ i, i ∈ g.libertiesVec ↔ S i) ∧
    g.numberOfLiberties = g.libertiesVec.length ∧
    (g.isDead = true ↔ ∀ i, ¬ S i) ∧
    (g.isAtari = true ↔ ∃ i, ∀ j, S j ↔ j = i) := by
  obtain ⟨h1, h2, h3, h4⟩ := C25_iter_ones (lib := g.liberties)
  have hm : ∀ i, i ∈ Bits.iterOnes g.liberties ↔ S i := fun i => by rw [h2 i, h.2 i]; rfl
  refine ⟨fun i hi => h.get hi, fun i hi => (C25_get h.1 i).2 hi, h1, hm, h3, ?_, ?_⟩
  · unfold Group.isDead
    have : Bits.any g.liberties = true ↔ ∃ i, S i := by
      rw [h4]
      exact exists_congr (fun i => (h.2 i).symm)
    cases hb : Bits.any g.liberties with
    | true =>
      obtain ⟨i, hi⟩ := this.1 hb
      simp only [Bool.not_true, Bool.false_eq_true, false_iff]
      exact fun hn => hn i hi
    | false =>
      simp only [Bool.not_false, true_iff]
      intro i hi
      have := this.2 ⟨i, hi⟩
      rw [hb] at this
      cases this
  · unfold Group.isAtari Group.numberOfLiberties
    rw [beq_iff_eq, h3, List.length_eq_one_iff]
    constructor
    · rintro ⟨a, ha⟩
      refine ⟨a, fun j => ?_⟩
      rw [← hm j, ha, List.mem_singleton]
    · rintro ⟨a, ha⟩
      refine ⟨a, ?_⟩
      have hnd : (Bits.iterOnes g.liberties).Nodup := h1.imp (fun h => Nat.ne_of_lt h)
      generalize Bits.iterOnes g.liberties = l at hm hnd
      match l, hm, hnd with
      | [], hm, _ => exact absurd ((hm a).2 ((ha a).2 rfl)) (by simp)
      | [b], hm, _ =>
        have := (ha b).1 ((hm b).1 (by simp))
        rw [this]
      | b :: c :: l, hm, hnd =>
        have hb := (ha b).1 ((hm b).1 (by simp))
        have hc := (ha c).1 ((hm c).1 (by simp))
        rw [hb, hc] at hnd
        simp at hnd

/-- The hypotheses of `C70_op` and `C70_ops` on a sequence that is allowed in both builds, and on one that is not in debug
builds. -/
example (dbg : Bool) : (Group.new .black 5).Shows (fun _ => False) ∧
    LibOp.AllFine dbg (fun _ => False) [.add 4, .addAll [6, 7], .remove 4, .unionSlice [6, 6, 9], .union EMPTY_LIBERTIES] ∧
    ¬ LibOp.AllFine true (fun _ => False) [.add 4, .add 4] ∧ LibOp.AllFine false (fun _ => False) [.add 4, .add 4] := by
  refine ⟨(C70_new .black 5).1, ?_, ?_, ?_⟩
  · simp [LibOp.AllFine, LibOp.Fine, LibOp.effect]
  · simp [LibOp.AllFine, LibOp.Fine, LibOp.effect]
  · simp [LibOp.AllFine, LibOp.Fine, LibOp.effect]

/-! ### The table of groups -/

/-- A call on the table that changes it. -/
inductive TabOp where
  | put (g : Group)
  | remove (i : Nat)

/-- The call made by the code; `put_free_spot` returns the index. -/
def TabOp.run (cs : Groups) : TabOp → M (Option Nat × Groups)
  | .put g => .ok (some (cs.putFreeSpot g).1, (cs.putFreeSpot g).2)
  | .remove i => do
    let cs ← cs.remove i
    .ok (none, cs)

/-- A sequence of calls: the indices returned and the table. -/
def TabOp.runAll (cs : Groups) : List TabOp → M (List (Option Nat) × Groups)
  | [] => .ok ([], cs)
  | op :: ops => do
    let r ← op.run cs
    let rs ← TabOp.runAll r.2 ops
    .ok (r.1 :: rs.1, rs.2)

/-- The table as a numbering: how many numbers have been given out, and which group has which number. -/
structure Numbering where
  given : Nat
  at_ : Nat → Option Group

/-- The empty numbering. -/
def Numbering.empty : Numbering := ⟨0, fun _ => none⟩

/-- What a call does to a numbering: a new group gets the next number, for ever; removing takes the group away and leaves its
number unused. -/
def Numbering.step (t : Numbering) : TabOp → Option Nat × Numbering
  | .put g => (some t.given, ⟨t.given + 1, fun i => if i = t.given then some g else t.at_ i⟩)
  | .remove i => (none, ⟨t.given, fun j => if j = i then none else t.at_ j⟩)

/-- A sequence of calls. -/
def Numbering.run (t : Numbering) : List TabOp → List (Option Nat) × Numbering
  | [] => ([], t)
  | op :: ops => ((t.step op).1 :: ((t.step op).2.run ops).1, ((t.step op).2.run ops).2)

/-- The call does not remove a number that was never given out. -/
def Numbering.Fine (t : Numbering) : TabOp → Prop
  | .put _ => True
  | .remove i => i < t.given

/-- The same for a sequence. -/
def Numbering.AllFine (t : Numbering) : List TabOp → Prop
  | [] => True
  | op :: ops => t.Fine op ∧ (t.step op).2.AllFine ops

/-- The table shows the numbering: `groups[i]` is the group with that number and panics when there is none. -/
def Groups.Shows (cs : Groups) (t : Numbering) : Prop :=
  cs.length = t.given ∧ ∀ i, (match t.at_ i with
    | some g => cs.chainAt i = .ok g
    | none => cs.chainAt i = panic)

theorem chainAt_eq (cs : Groups) (i : Nat) : (match cs[i]?.join with
    | some g => cs.chainAt i = .ok g
    | none => cs.chainAt i = panic) := by
  unfold Groups.chainAt
  cases h : cs[i]? with
  | none => rfl
  | some o => cases o <;> rfl

theorem Groups.shows_iff {cs : Groups} {t : Numbering} : cs.Shows t ↔ cs.length = t.given ∧ ∀ i, cs[i]?.join = t.at_ i := by
  unfold Groups.Shows
  apply and_congr_right
  intro _
  apply forall_congr'
  intro i
  have := chainAt_eq cs i
  cases h : cs[i]?.join with
  | none =>
    rw [h] at this
    dsimp only at this
    cases h' : t.at_ i with
    | none => simp [this]
    | some g => dsimp only; rw [this]; simp [panic]
  | some g =>
    rw [h] at this
    dsimp only at this
    cases h' : t.at_ i with
    | none => dsimp only; rw [this]; simp [panic]
    | some g' => dsimp only; rw [this]; simp

theorem C70_table_op {cs : Groups} {t : Numbering} (h : cs.Shows t) (op : TabOp) :
    (t.Fine op → ∃ cs', op.run cs = .ok ((t.step op).1, cs') ∧ cs'.Shows (t.step op).2) ∧ (¬ t.Fine op → op.run cs = panic) := by
  rw [Groups.shows_iff] at h
  obtain ⟨hl, hv⟩ := h
  cases op with
  | put g =>
    refine ⟨fun _ => ⟨cs ++ [some g], ?_, ?_⟩, fun hn => absurd trivial hn⟩
    · show (Except.ok (some cs.length, cs ++ [some g]) : M _) = _
      rw [hl]; rfl
    · rw [Groups.shows_iff]
      refine ⟨by rw [List.length_append, hl]; rfl, fun i => ?_⟩
      show _ = if i = t.given then some g else t.at_ i
      rw [List.getElem?_append, ← hl, ← hv i]
      by_cases h1 : i < cs.length
      · rw [if_pos h1, if_neg (by omega)]
      · rw [if_neg h1]
        by_cases h2 : i = cs.length
        · rw [if_pos h2, h2]; simp
        · rw [if_neg h2, List.getElem?_eq_none (by simp; omega), List.getElem?_eq_none (by omega)]
  | remove i =>
    constructor
    · intro hi
      have hi' : i < cs.length := by rw [hl]; exact hi
      refine ⟨cs.set i none, ?_, ?_⟩
      · show (do let cs ← (if i < cs.length then Except.ok (cs.set i none) else panic : M Groups); Except.ok (none, cs)) = _
        rw [if_pos hi']
        rfl
      · rw [Groups.shows_iff]
        refine ⟨by rw [List.length_set]; exact hl, fun j => ?_⟩
        show _ = if j = i then none else t.at_ j
        rw [List.getElem?_set, ← hv j]
        by_cases hj : i = j
        · subst hj
          rw [if_pos rfl, if_pos hi', if_pos rfl]; rfl
        · rw [if_neg hj, if_neg (fun h => hj h.symm)]
    · intro hn
      show (do let cs ← (if i < cs.length then Except.ok (cs.set i none) else panic : M Groups); Except.ok (none, cs)) = panic
      rw [if_neg (by rw [hl]; exact hn)]
      rfl

/-- **C70**. The table of groups is a numbering: over every sequence of calls the returned indices are 0, 1, 2, …, never
reused; an index leads to its group until it is removed and panics afterwards; removing an index not yet given panics. -/
theorem C70_table : ∀ (ops : List TabOp) {cs : Groups} {t : Numbering}, cs.Shows t →
    (t.AllFine ops → ∃ cs', TabOp.runAll cs ops = .ok ((t.run ops).1, cs') ∧ cs'.Shows (t.run ops).2) ∧
    (¬ t.AllFine ops → TabOp.runAll cs ops = panic)
  | [], cs, t, h => ⟨fun _ => ⟨cs, rfl, h⟩, fun hn => absurd trivial hn⟩
  | op :: ops, cs, t, h => by
    have e0 : TabOp.runAll cs (op :: ops) = (do
      let r ← op.run cs
      let rs ← TabOp.runAll r.2 ops
      .ok (r.1 :: rs.1, rs.2)) := rfl
    rw [e0]
    by_cases hf : t.Fine op
    · obtain ⟨cs1, e1, h1⟩ := (C70_table_op h op).1 hf
      rw [e1, ok_bind]
      have ih := C70_table ops h1
      constructor
      · rintro ⟨_, ha⟩
        obtain ⟨cs', e, h'⟩ := ih.1 ha
        dsimp only
        rw [e, ok_bind]
        exact ⟨cs', rfl, h'⟩
      · intro hn
        dsimp only
        rw [ih.2 (fun ha => hn ⟨hf, ha⟩)]
        rfl
    · rw [(C70_table_op h op).2 hf]
      exact ⟨fun ha => absurd ha.1 hf, fun _ => rfl⟩

/-- **C70**. `iter_with_index` lists the present groups with their numbers, in increasing order, and `iter` the same groups. -/
theorem C70_table_iter {cs : Groups} {t : Numbering} (h : cs.Shows t) :
    (∀ i g, (i, g) ∈ cs.iterWithIndex ↔ t.at_ i = some g) ∧
    (cs.iterWithIndex.map Prod.fst).Pairwise (· < ·) ∧ cs.iterWithIndex.map Prod.snd = cs.iter := by
  obtain ⟨_, hv⟩ := Groups.shows_iff.1 h
  unfold Groups.iterWithIndex Groups.iter
  refine ⟨fun i g => ?_, ?_, ?_⟩
  · rw [← hv i, List.mem_filterMap]
    constructor
    · rintro ⟨⟨e, j⟩, hm, he⟩
      have := List.mem_zipIdx_iff_getElem?.1 hm
      dsimp only at this he
      cases e with
      | none => cases he
      | some x =>
        simp only [Option.map_some, Option.some.injEq, Prod.mk.injEq] at he
        obtain ⟨rfl, rfl⟩ := he
        rw [this]; rfl
    · intro hj
      refine ⟨(some g, i), List.mem_zipIdx_iff_getElem?.2 ?_, rfl⟩
      cases hc : cs[i]? with
      | none => rw [hc] at hj; cases hj
      | some o => rw [hc] at hj; cases o with
        | none => cases hj
        | some x => cases hj; rfl
  · have key : ∀ (l : Groups) (k : Nat), ((List.map Prod.fst ((l.zipIdx k).filterMap
        (fun x => x.1.map (fun g => (x.2, g))))).Pairwise (· < ·)) ∧
        ∀ j ∈ List.map Prod.fst ((l.zipIdx k).filterMap (fun x => x.1.map (fun g => (x.2, g)))), k ≤ j := by
      intro l
      induction l with
      | nil => intro k; simp
      | cons o l ih =>
        intro k
        obtain ⟨i1, i2⟩ := ih (k + 1)
        rw [List.zipIdx_cons, List.filterMap_cons]
        cases o with
        | none => exact ⟨i1, fun j hj => Nat.le_trans (Nat.le_succ k) (i2 j hj)⟩
        | some x =>
          refine ⟨?_, ?_⟩
          · simp only [Option.map_some, List.map_cons]
            exact List.pairwise_cons.2 ⟨fun j hj => i2 j hj, i1⟩
          · simp only [Option.map_some, List.map_cons]
            intro j hj
            rcases List.mem_cons.1 hj with rfl | hj
            · exact Nat.le_refl _
            · exact Nat.le_trans (Nat.le_succ k) (i2 j hj)
    exact (key cs 0).1
  · have key : ∀ (l : Groups) (k : Nat), List.map Prod.snd ((l.zipIdx k).filterMap (fun x => x.1.map (fun g => (x.2, g)))) =
        l.filterMap id := by
      intro l
      induction l with
      | nil => intro k; rfl
      | cons o l ih =>
        intro k
        rw [List.zipIdx_cons, List.filterMap_cons, List.filterMap_cons]
        cases o with
        | none => exact ih (k + 1)
        | some x =>
          simp only [Option.map_some, List.map_cons, id]
          rw [ih (k + 1)]
          rfl
    exact key cs 0

/-- The hypotheses of `C70_table`: the empty table, and a sequence with a removal and a second removal of the same number. -/
example : Groups.Shows [] Numbering.empty ∧
    Numbering.empty.AllFine [.put (Group.new .black 3), .put (Group.new .white 7), .remove 0, .remove 0, .put (Group.new .black 1)] ∧
    ¬ Numbering.empty.AllFine [.put (Group.new .black 3), .remove 1] := by
  refine ⟨⟨rfl, fun i => ?_⟩, ?_, ?_⟩
  · show Groups.chainAt [] i = panic
    rfl
  · simp [Numbering.AllFine, Numbering.Fine, Numbering.step, Numbering.empty]
  · simp [Numbering.AllFine, Numbering.Fine, Numbering.step, Numbering.empty]

end Model
