import Verif.Model.Unwind
/-!
# What a panic of `put_handicap` leaves behind
-/

namespace Model

/-- `push_many`: src/pieces/goban.rs:298-302. -/
def Goban.pushManyU (dbg : Bool) (points : List Coord) (value : Color) : U Goban Unit :=
  points.foldlM (fun _ p => Goban.pushU dbg p value) ()

/-- `put_handicap`: src/rules/game.rs:242-248. The number of stones is written first and the turn last. -/
def Game.putHandicapU (dbg : Bool) (points : List Coord) : U Game Unit := do
  st (fun g => .ok { g with handicap := points.length })
  Game.onGoban (Goban.pushManyU dbg points .black)
  st (fun g => .ok { g with turn := .white })

end Model
