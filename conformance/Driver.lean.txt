import Verif.Model.Builder
import Verif.Model.Sgf
import Verif.Model.DeadStones
import Verif.Model.Territory
import Verif.Model.UnwindHandicap
open Model

def fault : Fault → String | .panic => "panic" | .diverge => "diverge"
def sh {α} (f : α → String) : M α → String | .ok a => f a | .error e => fault e
def cs (c : Coord) : String := s!"{c.1},{c.2}"
def mc : MaybeColor → String | none => "0" | some .black => "1" | some .white => "2"
def cc : Color → String | .black => "1" | .white => "2"
def join (l : List String) : String := ";".intercalate l
def grp : Option Group → String
  | none => "-"
  | some g => s!"{cc g.color}:{g.origin}:{g.last}:{g.numStones}:" ++ ",".intercalate (g.libertiesVec.map toString)
def pe : Option PlayError → String
  | none => "none" | some .ko => "Ko" | some .suicide => "Suicide" | some .gamePaused => "GamePaused"
  | some .fillEye => "FillEye" | some .pointNotEmpty => "PointNotEmpty"
def goban (g : Goban) : String :=
  s!"{cs g.size} {g.zobristHash.toNat} " ++ join (g.chains.map grp) ++ " "
  ++ ",".intercalate ((g.board.zipIdx.filter (fun e => e.1.isSome)).map (fun e => s!"{e.2}={e.1.getD 0}")) ++ " "
  ++ ",".intercalate ((g.nextStone.zipIdx.filter (fun e => e.1 ≠ 0)).map (fun e => s!"{e.2}={e.1}"))
def fl : F32 → String
  | .nan => "nan" | .inf true => "-inf" | .inf false => "inf" | .fin v => s!"{v.num}/{v.den}"
def eg : Option EndGame → String
  | none => "none"
  | some .draw => "D"
  | some (.winnerByScore c k) => s!"S{cc c}{fl k}"
  | some (.winnerByResign c) => s!"R{cc c}"
  | some (.winnerByTime c) => s!"T{cc c}"
  | some (.winnerByForfeit c) => s!"F{cc c}"
def game (g : Game) : String :=
  goban g.goban ++ s!" {g.passes} {g.prisoners.1},{g.prisoners.2} {eg g.outcome} {cc g.turn} {g.handicap} "
  ++ (match g.koPoint with | none => "-" | some c => cs c) ++ " " ++ join (g.history.map (fun h => toString h.zobristHash.toNat))
def insS (x : String) : List String → List String
  | [] => [x]
  | y :: ys => if x ≤ y then x :: y :: ys else y :: insS x ys
def sortS (l : List String) : List String := l.toArray.qsort (fun a b => a < b) |>.toList
def pt (p : Point) : String := s!"{cs p.coord}:{mc p.color}"
def stn (p : Stone) : String := s!"{cs p.coord}:{cc p.color}"
def ills (n : Nat) : IllegalRules := { ko := n.testBit 0, superko := n.testBit 1, suicide := n.testBit 2, fillEye := n.testBit 3 }
def scs (n : Nat) : ScoreRules := { stones := n.testBit 0, komi := n.testBit 1, prisonners := n.testBit 2 }
def col (n : Nat) : Color := if n = 1 then .black else .white

def colQ (dbg : Bool) (g : Game) (c : Coord) : List String :=
  let b := g.goban
  [ sh mc (b.getColor c), sh (fun l => join (l.map cs)) (b.getLiberties dbg c), sh toString (b.hasLiberties dbg c),
    sh (fun l => join (l.map pt)) (b.connectedPoints dbg c), sh (fun l => join (l.map stn)) (b.connectedStones dbg c),
    sh (fun l => join (l.map toString)) (b.connectedGroupsIdx dbg (twoTo1dim b.size c)),
    sh toString (g.willCapture dbg c),
    sh (fun p => toString p.zobristHash.toNat) (g.playForVerification dbg c) ]
  ++ (List.range 16).map (fun n => sh pe (g.checkPointBy dbg c (ills n)))
  ++ [Color.black, .white].flatMap (fun k =>
    [ sh toString (g.checkEye dbg ⟨c, k⟩), sh toString (g.checkKo dbg ⟨c, k⟩), sh toString (g.checkSuicide dbg ⟨c, k⟩),
      sh toString (g.checkSuperKo dbg ⟨c, k⟩) ])

def allQ (dbg : Bool) (g : Game) : List String :=
  let b := g.goban
  [ sh (fun l => join (l.map cs)) g.pseudoLegals, sh (fun l => join (l.map cs)) (g.pseudoLegalsVec dbg) ]
  ++ (List.range 16).map (fun n => sh (fun l => join (l.map cs)) (g.legalsBy dbg (ills n)))
  ++ [ sh (fun l => join (l.map mc)) b.toVec, sh (fun l => join (l.map (fun r => ",".intercalate (r.map mc)))) b.matrix,
    s!"{b.numberOfStones.1},{b.numberOfStones.2}", sh (fun l => join (l.map stn)) b.getStones,
    join (b.getEmptyIdx.map toString) ]
  ++ [none, some Color.black, some .white].map (fun k => sh (fun l => join (l.map cs)) (b.getCoordsByColor dbg k))
  ++ [ sh (fun l => (String.ofList l).map (fun c => if c = '\n' then '/' else c)) b.prettyString,
    sh (fun t => join (sortS (t.1.map pt)) ++ " | " ++ join (sortS (t.2.map pt))) (b.territories dbg id),
    sh (fun t => s!"{fl t.1} {fl t.2}") (g.calculateScore dbg id),
    sh eg (g.getOutcome dbg id),
    sh (fun l => join (l.map toString)) (g.floatingStones dbg),
    sh (fun l => join (l.map (fun | .play x y => s!"{x},{y}" | .pass => "P" | .resign _ => "R"))) (g.legalsMoves dbg) ]
  ++ (List.range (b.chains.length + 1)).map (fun k => sh (fun l => join (l.map stn)) (b.chainStonesIdx dbg k))

/-- One token, as numbers. -/
def token : List Nat → Sgf.Token × List Nat
  | 0 :: k :: l => (.komi (.fin ((k : Rat) / 2)), l)
  | 1 :: x :: y :: l => (.size x y, l)
  | 2 :: 0 :: c :: l => (.result (.winnerByResign (col c)), l)
  | 2 :: 1 :: c :: l => (.result (.winnerByForfeit (col c)), l)
  | 2 :: 2 :: c :: p :: l => (.result (.winnerByPoints (col c) (.fin ((p : Rat) / 2))), l)
  | 2 :: 3 :: c :: l => (.result (.winnerByTime (col c)), l)
  | 2 :: 4 :: l => (.result .draw, l)
  | 3 :: c :: x :: y :: l => (.add (col c) x y, l)
  | 4 :: r :: l => (.rule (if r = 0 then .japanese else if r = 1 then .chinese else .other), l)
  | 5 :: h :: l => (.handicap h, l)
  | 6 :: b :: l => (.game (b = 1), l)
  | 7 :: c :: 1 :: x :: y :: l => (.move (col c) (.move x y), l)
  | 7 :: c :: 0 :: l => (.move (col c) .pass, l)
  | 8 :: k :: v :: l => (.unknown (if k = 0 then "PL" else "ZZ") (if v = 0 then "B" else if v = 1 then "W" else "X"), l)
  | 9 :: l => (.other, l)
  | l => (.other, l)

def tokens : Nat → List Nat → List Sgf.Token × List Nat
  | 0, l => ([], l)
  | n + 1, l => let t := token l; let r := tokens n t.2; (t.1 :: r.1, r.2)

def nodes : Nat → List Nat → List (List Sgf.Token)
  | n + 1, k :: l => let r := tokens k l; r.1 :: nodes n r.2
  | _, _ => []

partial def loop (h : IO.FS.Stream) (out : IO.FS.Stream) (dbg : Bool) (g : Option Game) : IO Unit := do
  let line ← h.getLine
  if line.isEmpty then return
  let ws := (line.trimAscii.toString.splitOn " ").filter (· ≠ "")
  let ns := (ws.drop 1).map (·.toNat!)
  let put (s : String) : IO Unit := out.putStrLn s
  let upd (dbg : Bool) (r : M Game) : IO Unit := do
    match r with
    | .ok g => put (game g); loop h out dbg (some g)
    | .error e => put (fault e); loop h out dbg none
  -- After a panic the session goes on with what the call has left.
  let updU {α : Type} (r : M Game) (u : U Game α) (g : Game) : IO Unit := do
    match r with
    | .ok g => put (game g); loop h out dbg (some g)
    | .error .panic => put (fault .panic); put (game (U.after u g)); loop h out dbg (some (U.after u g))
    | .error e => put (fault e); loop h out dbg none
  match ws[0]!, ns with
  | "N", [d, a, b, i, s, k] =>
    let rule : Rule := { komi := .fin ((k : Rat) / 2), flagIllegal := ills i, flagScore := scs s }
    upd (d = 1) (Game.new (.custom a b) rule)
  | "B", d :: a :: b :: i :: s :: k :: t :: nh :: rest =>
    let rule : Rule := { komi := .fin ((k : Rat) / 2), flagIllegal := ills i, flagScore := scs s }
    let rec pairs : Nat → List Nat → List Coord × List Nat
      | 0, l => ([], l)
      | n + 1, x :: y :: l => let r := pairs n l; ((x, y) :: r.1, r.2)
      | _, l => ([], l)
    let (hp, rest) := pairs nh rest
    let rec triples : Nat → List Nat → List (Nat × Nat × Nat) × List Nat
      | 0, l => ([], l)
      | n + 1, x :: y :: z :: l => let r := triples n l; ((x, y, z) :: r.1, r.2)
      | _, l => ([], l)
    let (su, rest) := triples rest.head! rest.tail
    let (mv, _) := triples rest.head! rest.tail
    let bld : GameBuilder := { GameBuilder.default with
      size := (a, b)
      rule := rule
      handicapPoints := hp
      «setup» := su.map (fun e => ⟨(e.1, e.2.1), col e.2.2⟩)
      turn := if t = 0 then none else some (col t)
      moves := mv.map (fun e => if e.2.2 = 0 then .play e.1 e.2.1 else if e.2.2 = 3 then .pass else .resign (col e.2.2)) }
    upd (d = 1) ((fun r => r.1) <$> bld.build (d = 1))
  | "F", d :: n :: l => upd (d = 1) (Sgf.fromNodes (d = 1) (nodes n l))
  | "S", d :: l =>
    let r := Goban.ofSlice (d = 1) (l.map (fun n => if n = 0 then none else some (col n)))
    put (sh goban r); loop h out dbg none
  | c, ns =>
    match g with
    | none => put "x"; loop h out dbg g
    | some g0 =>
      match c, ns with
      | "p", [x, y] => updU (g0.play dbg (.play x y)) (Game.playU dbg (.play x y)) g0
      | "P", _ => updU (g0.play dbg .pass) (Game.playU dbg .pass) g0
      | "R", [c] => upd dbg (g0.play dbg (.resign (col c)))
      | "t", [x, y] =>
        put (sh (fun r => pe r.1) (g0.tryPlay dbg (.play x y)))
        updU ((fun r => r.2) <$> g0.tryPlay dbg (.play x y)) (Game.tryPlayU dbg (.play x y)) g0
      | "tP", _ =>
        put (sh (fun r => pe r.1) (g0.tryPlay dbg .pass))
        updU ((fun r => r.2) <$> g0.tryPlay dbg .pass) (Game.tryPlayU dbg .pass) g0
      | "u", _ => upd dbg (.ok g0.resume)
      | "k", [k] => upd dbg (.ok (g0.setKomi (.fin ((k : Rat) / 2))))
      | "h", _ :: l =>
        let rec prs : List Nat → List Coord
          | x :: y :: l => (x, y) :: prs l
          | _ => []
        updU (g0.putHandicap dbg (prs l)) (Game.putHandicapU dbg (prs l)) g0
      | "q", [x, y] => put (" # ".intercalate (colQ dbg g0 (x, y))); loop h out dbg g
      | "g", [x, y] =>
        put (sh (fun l => join (sortS (l.map pt))) (do
          let k ← g0.goban.getColor (x, y)
          g0.goban.groupFromPoint dbg ⟨(x, y), k⟩)); loop h out dbg g
      | "Q", _ => put (" # ".intercalate (allQ dbg g0)); loop h out dbg g
      | _, _ => put "bad"; loop h out dbg g

def main : IO Unit := do
  let h ← IO.getStdin
  let out ← IO.getStdout
  loop h out true none
