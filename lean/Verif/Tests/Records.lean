import Verif.Model.Sgf
/-!
# The game records of the repository's tests
-/

namespace Model.Tests
open Sgf

/-- `moves_sgf`: tests/general_tests.rs:116-434. -/
def movesSgf : List Move :=
  [.play 16 13, .play 16 11, .play 14 12, .play 14 11, .play 13 11, .play 13 12, .play 14 13, .play 14 10, .play 12 12,
   .play 13 13, .play 14 14, .play 12 13, .play 14 15, .play 11 12, .play 12 11, .play 11 13, .play 12 9, .play 13 8,
   .play 13 9, .play 14 9, .play 14 8, .play 12 8, .play 11 11, .play 15 8, .play 14 7, .play 13 6, .play 15 7,
   .play 16 8, .play 16 7, .play 17 7, .play 17 6, .play 17 8, .play 14 5, .play 16 4, .play 12 6, .play 11 8, .play 13 5,
   .play 10 11, .play 10 10, .play 11 10, .play 13 2, .play 11 9, .play 16 2, .play 15 2, .play 15 1, .play 14 1,
   .play 16 1, .play 13 3, .play 12 3, .play 12 2, .play 13 1, .play 14 2, .play 13 4, .play 12 1, .play 13 0, .play 14 0,
   .play 14 3, .play 17 4, .play 17 5, .play 18 1, .play 2 13, .play 2 11, .play 4 12, .play 3 13, .play 3 12, .play 2 12,
   .play 3 14, .play 4 13, .play 4 14, .play 5 13, .play 2 14, .play 5 14, .play 4 15, .play 2 6, .play 5 15, .play 6 15,
   .play 6 16, .play 7 15, .play 7 16, .play 8 16, .play 6 14, .play 5 12, .play 3 10, .play 2 10, .play 4 10, .play 6 10,
   .play 5 11, .play 7 13, .play 6 11, .play 7 12, .play 7 11, .play 3 8, .play 7 14, .play 8 15, .play 8 14, .play 9 13,
   .play 9 12, .play 8 13, .play 10 14, .play 9 14, .play 10 12, .play 9 11, .play 8 11, .play 9 10, .play 10 13,
   .play 12 15, .play 12 14, .play 13 14, .play 13 15, .play 11 14, .play 11 15, .play 8 12, .play 12 14, .play 8 9,
   .play 4 8, .play 3 9, .play 4 9, .play 6 8, .play 4 6, .play 3 7, .play 4 7, .play 6 6, .play 2 5, .play 3 5,
   .play 3 6, .play 1 7, .play 7 9, .play 7 8, .play 1 6, .play 2 7, .play 5 5, .play 2 4, .play 6 5, .play 7 5,
   .play 6 9, .play 5 9, .play 7 10, .play 5 8, .play 7 4, .play 8 5, .play 5 2, .play 7 2, .play 7 3, .play 6 2,
   .play 6 3, .play 5 1, .play 4 2, .play 4 1, .play 3 2, .play 2 2, .play 3 1, .play 2 1, .play 8 2, .play 8 1,
   .play 9 4, .play 9 2, .play 9 9, .play 10 9, .play 9 8, .play 8 8, .play 8 10, .play 10 10, .play 10 7, .play 11 6,
   .play 10 6, .play 12 5, .play 11 5, .play 12 7, .play 11 4, .play 8 4, .play 15 4, .play 15 5, .play 14 6, .play 14 4,
   .play 13 3, .play 16 6, .play 15 4, .play 16 3, .play 16 5, .play 14 4, .play 15 6, .play 15 4, .play 17 2, .play 18 4,
   .play 18 5, .play 18 2, .play 18 3, .play 17 3, .play 15 0, .play 16 16, .play 17 15, .play 17 16, .play 16 15,
   .play 14 17, .play 13 17, .play 14 16, .play 15 16, .play 15 17, .play 17 17, .play 18 17, .play 17 18, .play 12 17,
   .play 13 16, .play 13 18, .play 11 17, .play 10 17, .play 11 18, .play 10 16, .play 11 16, .play 8 17, .play 5 10,
   .play 3 11, .play 4 0, .play 6 1, .play 17 12, .play 17 11, .play 4 5, .play 3 4, .play 8 7, .play 7 7, .play 7 18,
   .play 7 17, .play 6 17, .play 4 17, .play 5 17, .play 4 16, .play 5 16, .play 2 16, .play 1 16, .play 1 17, .play 1 15,
   .play 0 17, .play 2 15, .play 3 16, .play 3 18, .play 2 17, .play 4 18, .play 1 13, .play 1 18, .play 2 18, .play 5 18,
   .play 1 14, .play 0 16, .play 8 18, .play 3 17, .play 6 18, .play 0 18, .play 8 3, .play 4 3, .play 4 4, .play 5 4,
   .play 2 0, .play 3 0, .play 5 0, .play 5 3, .play 4 11, .play 8 6, .play 7 6, .play 9 5, .play 11 2, .play 12 0,
   .play 11 0, .play 10 1, .play 10 2, .play 11 1, .play 9 1, .play 10 0, .play 9 0, .play 11 0, .play 16 12, .play 17 13,
   .play 15 12, .play 18 11, .play 18 10, .play 18 12, .play 17 10, .play 0 14, .play 1 12, .play 10 18, .play 9 18,
   .play 18 7, .play 18 8, .play 15 13, .play 13 10, .play 12 10, .play 5 7, .play 11 3, .play 10 3, .play 10 4,
   .play 0 13, .play 6 12, .play 6 13, .play 18 3, .play 7 18, .play 18 6, .play 0 15, .play 1 5, .play 1 4, .play 0 14,
   .play 5 6, .play 0 15, .play 2 3, .pass, .play 15 14, .pass, .play 16 14, .play 17 14, .play 15 16, .play 18 15,
   .play 18 16, .play 14 18, .play 15 18, .play 12 18, .play 14 18, .play 16 17, .play 10 15, .pass, .pass]

/-- The main line of sgf/ShusakuvsInseki.sgf, as the parser delivers it. -/
def sgfShusaku : List (List Token) :=
  [[.size 19 19, .handicap 0, .other, .other, .other, .komi (.fin (0 / 1)), .result (.winnerByPoints .black (.fin (2 / 1))), .other, .other, .other],
   [.move .black (.move 17 4)], [.move .white (.move 4 3)], [.move .black (.move 16 17)], [.move .white (.move 15 3)],
   [.move .black (.move 3 16)], [.move .white (.move 3 6)], [.move .black (.move 5 16)], [.move .white (.move 17 15)],
   [.move .black (.move 16 5)], [.move .white (.move 14 16)], [.move .black (.move 16 15)], [.move .white (.move 16 16)],
   [.move .black (.move 15 16)], [.move .white (.move 17 16)], [.move .black (.move 15 17)], [.move .white (.move 15 15)],
   [.move .black (.move 16 14)], [.move .white (.move 17 17)], [.move .black (.move 14 17)], [.move .white (.move 15 14)],
   [.move .black (.move 16 13)], [.move .white (.move 15 13)], [.move .black (.move 16 12)], [.move .white (.move 13 16)],
   [.move .black (.move 13 17)], [.move .white (.move 15 12)], [.move .black (.move 16 11)], [.move .white (.move 12 17)],
   [.move .black (.move 12 18)], [.move .white (.move 11 18)], [.move .black (.move 12 16)], [.move .white (.move 11 17)],
   [.move .black (.move 17 18)], [.move .white (.move 18 18)], [.move .black (.move 18 19)], [.move .white (.move 13 18)],
   [.move .black (.move 14 18)], [.move .white (.move 16 18)], [.move .black (.move 16 19)], [.move .white (.move 17 19)],
   [.move .black (.move 14 15)], [.move .white (.move 13 15)], [.move .black (.move 17 18)], [.move .white (.move 18 13)],
   [.move .black (.move 18 12)], [.move .white (.move 17 19)], [.move .black (.move 12 15)], [.move .white (.move 13 14)],
   [.move .black (.move 17 18)], [.move .white (.move 17 13)], [.move .black (.move 15 18)], [.move .white (.move 17 12)],
   [.move .black (.move 17 10)], [.move .white (.move 18 10)], [.move .black (.move 18 9)], [.move .white (.move 18 11)],
   [.move .black (.move 12 14)], [.move .white (.move 13 13)], [.move .black (.move 17 9)], [.move .white (.move 18 17)],
   [.move .black (.move 10 14)], [.move .white (.move 12 19)], [.move .black (.move 14 19)], [.move .white (.move 7 17)],
   [.move .black (.move 7 15)], [.move .white (.move 3 11)], [.move .black (.move 11 3)], [.move .white (.move 9 3)],
   [.move .black (.move 16 3)], [.move .white (.move 14 10)], [.move .black (.move 11 5)], [.move .white (.move 15 7)],
   [.move .black (.move 15 8)], [.move .white (.move 16 2)], [.move .black (.move 17 2)], [.move .white (.move 14 7)],
   [.move .black (.move 13 9)], [.move .white (.move 13 10)], [.move .black (.move 14 4)], [.move .white (.move 16 8)],
   [.move .black (.move 17 7)], [.move .white (.move 16 7)], [.move .black (.move 8 17)], [.move .white (.move 8 18)],
   [.move .black (.move 9 18)], [.move .white (.move 9 17)], [.move .black (.move 8 16)], [.move .white (.move 10 18)],
   [.move .black (.move 6 3)], [.move .white (.move 12 3)], [.move .black (.move 12 4)], [.move .white (.move 13 3)],
   [.move .black (.move 12 2)], [.move .white (.move 13 2)], [.move .black (.move 13 4)], [.move .white (.move 17 6)],
   [.move .black (.move 16 6)], [.move .white (.move 17 8)], [.move .black (.move 18 7)], [.move .white (.move 18 8)],
   [.move .black (.move 19 8)], [.move .white (.move 18 6)], [.move .black (.move 19 7)], [.move .white (.move 16 10)],
   [.move .black (.move 16 9)], [.move .white (.move 15 9)], [.move .black (.move 15 10)], [.move .white (.move 14 9)],
   [.move .black (.move 17 11)], [.move .white (.move 15 11)], [.move .black (.move 17 5)], [.move .white (.move 11 2)],
   [.move .black (.move 10 2)], [.move .white (.move 11 1)], [.move .black (.move 10 3)], [.move .white (.move 15 2)],
   [.move .black (.move 10 1)], [.move .white (.move 12 1)], [.move .black (.move 4 2)], [.move .white (.move 3 3)],
   [.move .black (.move 6 5)], [.move .white (.move 3 14)], [.move .black (.move 7 18)], [.move .white (.move 9 19)],
   [.move .black (.move 6 17)], [.move .white (.move 9 15)], [.move .black (.move 10 9), .other], [.move .white (.move 5 2)],
   [.move .black (.move 6 2)], [.move .white (.move 5 7)], [.move .black (.move 4 10)], [.move .white (.move 4 11)],
   [.move .black (.move 5 10)], [.move .white (.move 3 10)], [.move .black (.move 4 8)], [.move .white (.move 9 10)],
   [.move .black (.move 8 13)], [.move .white (.move 7 10)], [.move .black (.move 5 8)], [.move .white (.move 6 12)],
   [.move .black (.move 6 7)], [.move .white (.move 5 18)], [.move .black (.move 4 13)], [.move .white (.move 6 14)],
   [.move .black (.move 4 14)], [.move .white (.move 7 14)], [.move .black (.move 10 10)], [.move .white (.move 10 11)],
   [.move .black (.move 11 11)], [.move .white (.move 9 9)], [.move .black (.move 9 11)], [.move .white (.move 10 12)],
   [.move .black (.move 11 12)], [.move .white (.move 9 12)], [.move .black (.move 10 8)], [.move .white (.move 3 15)],
   [.move .black (.move 4 15)], [.move .white (.move 9 8)], [.move .black (.move 8 14)], [.move .white (.move 8 12)],
   [.move .black (.move 2 12)], [.move .white (.move 4 7)], [.move .black (.move 7 8)], [.move .white (.move 3 8)],
   [.move .black (.move 9 7)], [.move .white (.move 5 3)], [.move .black (.move 3 18)], [.move .white (.move 6 4)],
   [.move .black (.move 7 4)], [.move .white (.move 5 4)], [.move .black (.move 7 3)], [.move .white (.move 2 11)],
   [.move .black (.move 3 13)], [.move .white (.move 7 19)], [.move .black (.move 7 16)], [.move .white (.move 12 9)],
   [.move .black (.move 11 7)], [.move .white (.move 9 14)], [.move .black (.move 12 10)], [.move .white (.move 12 7)],
   [.move .black (.move 7 13)], [.move .white (.move 10 6)], [.move .black (.move 10 7)], [.move .white (.move 9 13)],
   [.move .black (.move 6 13)], [.move .white (.move 11 6)], [.move .black (.move 12 6)], [.move .white (.move 13 6)],
   [.move .black (.move 12 5)], [.move .white (.move 7 6)], [.move .black (.move 8 6)], [.move .white (.move 6 6)],
   [.move .black (.move 7 7)], [.move .white (.move 12 11)], [.move .black (.move 11 10)], [.move .white (.move 11 13)],
   [.move .black (.move 12 13)], [.move .white (.move 12 12)], [.move .black (.move 10 13)], [.move .white (.move 7 5)],
   [.move .black (.move 8 5)], [.move .white (.move 5 6)], [.move .black (.move 5 1)], [.move .white (.move 3 2)],
   [.move .black (.move 6 18)], [.move .white (.move 6 19)], [.move .black (.move 4 18)], [.move .white (.move 17 1)],
   [.move .black (.move 18 1)], [.move .white (.move 16 1)], [.move .black (.move 18 2)], [.move .white (.move 4 1)],
   [.move .black (.move 7 9)], [.move .white (.move 6 10)], [.move .black (.move 6 9)], [.move .white (.move 6 1)],
   [.move .black (.move 7 1)], [.move .white (.move 7 12)], [.move .black (.move 5 11)], [.move .white (.move 5 13)],
   [.move .black (.move 8 15)], [.move .white (.move 5 12)], [.move .black (.move 5 14)], [.move .white (.move 10 15)],
   [.move .black (.move 11 14)], [.move .white (.move 3 9)], [.move .black (.move 12 8)], [.move .white (.move 13 8)],
   [.move .black (.move 13 7)], [.move .white (.move 4 9)], [.move .black (.move 5 9)], [.move .white (.move 12 7)],
   [.move .black (.move 17 14)], [.move .white (.move 18 14)], [.move .black (.move 18 5)], [.move .white (.move 19 12)],
   [.move .black (.move 13 7)], [.move .white (.move 2 13)], [.move .black (.move 1 13)], [.move .white (.move 12 7)],
   [.move .black (.move 5 17)], [.move .white (.move 5 19)], [.move .black (.move 13 7)], [.move .white (.move 8 1)],
   [.move .black (.move 7 2)], [.move .white (.move 12 7)], [.move .black (.move 4 19)], [.move .white (.move 8 19)],
   [.move .black (.move 13 7)], [.move .white (.move 19 10)], [.move .black (.move 19 9)], [.move .white (.move 12 7)],
   [.move .black (.move 19 18)], [.move .white (.move 19 17)], [.move .black (.move 13 7)], [.move .white (.move 8 4)],
   [.move .black (.move 8 2)], [.move .white (.move 12 7)], [.move .black (.move 18 15)], [.move .white (.move 19 15)],
   [.move .black (.move 13 7)], [.move .white (.move 19 19)], [.move .black (.move 17 19)], [.move .white (.move 12 7)],
   [.move .black (.move 19 14)], [.move .white (.move 18 16)], [.move .black (.move 13 7)], [.move .white (.move 3 12)],
   [.move .black (.move 2 14)], [.move .white (.move 12 7)], [.move .black (.move 13 12)], [.move .white (.move 13 11)],
   [.move .black (.move 13 7)], [.move .white (.move 16 10)], [.move .black (.move 19 6)], [.move .white (.move 12 7)],
   [.move .black (.move 14 14)], [.move .white (.move 14 12)], [.move .black (.move 13 7)], [.move .white (.move 9 2)],
   [.move .black (.move 9 1)], [.move .white (.move 12 7)], [.move .black (.move 14 3)], [.move .white (.move 14 2)],
   [.move .black (.move 13 7)], [.move .white (.move 10 4)], [.move .black (.move 11 4)], [.move .white (.move 12 7)],
   [.move .black (.move 13 1)], [.move .white (.move 14 1)], [.move .black (.move 13 7)], [.move .white (.move 17 3)],
   [.move .black (.move 18 3)], [.move .white (.move 12 7)], [.move .black (.move 10 19)], [.move .white (.move 11 19)],
   [.move .black (.move 13 7)], [.move .white (.move 8 3)], [.move .black (.move 9 4)], [.move .white (.move 12 7)],
   [.move .black (.move 6 11)], [.move .white (.move 8 10)], [.move .black (.move 13 7)], [.move .white (.move 8 8)],
   [.move .black (.move 8 7)], [.move .white (.move 12 7)], [.move .black (.move 7 11)], [.move .white (.move 8 11)],
   [.move .black (.move 13 7)], [.move .white (.move 1 11)], [.move .black (.move 12 7)], [.move .white (.move 1 12)],
   [.move .black (.move 2 13)], [.move .white (.move 14 6)], [.move .black (.move 15 4)], [.move .white (.move 11 9)],
   [.move .black (.move 13 19)], [.move .white (.move 11 16)], [.move .black (.move 9 16)], [.move .white (.move 10 16)],
   [.move .black (.move 12 18)], [.move .white (.move 15 10)], [.move .black (.move 13 18)], [.move .white (.move 5 1)],
   [.move .black (.move 19 18), .other]]

/-- The main line of sgf/sgf_1.sgf, as the parser delivers it. -/
def sgf1 : List (List Token) :=
  [[.other, .game true, .size 19 19, .other, .other, .other, .other, .other, .other, .other, .other, .other, .komi (.fin (15 / 2)), .other, .result (.winnerByResign .white), .other, .other, .other, .other],
   [.move .black (.move 17 4)], [.move .white (.move 4 4)], [.move .black (.move 16 17)], [.move .white (.move 4 16)],
   [.move .black (.move 14 4)], [.move .white (.move 16 15)], [.move .black (.move 17 15)], [.move .white (.move 17 14)],
   [.move .black (.move 17 16)], [.move .white (.move 16 14)], [.move .black (.move 14 17)], [.move .white (.move 16 10)],
   [.move .black (.move 3 3)], [.move .white (.move 4 3)], [.move .black (.move 3 4)], [.move .white (.move 3 5)],
   [.move .black (.move 2 5)], [.move .white (.move 2 6)], [.move .black (.move 3 6)], [.move .white (.move 4 5)],
   [.move .black (.move 2 7)], [.move .white (.move 2 4)], [.move .black (.move 1 6)], [.move .white (.move 2 3)],
   [.move .black (.move 3 14)], [.move .white (.move 6 17)], [.move .black (.move 17 8)], [.move .white (.move 3 15)],
   [.move .black (.move 4 14)], [.move .white (.move 3 10)], [.move .black (.move 4 6)], [.move .white (.move 3 12)],
   [.move .black (.move 7 14)], [.move .white (.move 5 12)], [.move .black (.move 7 16)], [.move .white (.move 6 15)],
   [.move .black (.move 6 16)], [.move .white (.move 5 16)], [.move .black (.move 5 15)], [.move .white (.move 7 17)],
   [.move .black (.move 8 16)], [.move .white (.move 8 17)], [.move .black (.move 6 14)], [.move .white (.move 9 16)],
   [.move .black (.move 2 14)], [.move .white (.move 3 8)], [.move .black (.move 2 16)], [.move .white (.move 2 15)],
   [.move .black (.move 1 15)], [.move .white (.move 3 17)], [.move .black (.move 5 9)], [.move .white (.move 7 12)],
   [.move .black (.move 6 10)], [.move .white (.move 5 6)], [.move .black (.move 5 7)], [.move .white (.move 4 7)],
   [.move .black (.move 3 7)], [.move .white (.move 4 8)], [.move .black (.move 3 2)], [.move .white (.move 2 2)],
   [.move .black (.move 4 2)], [.move .white (.move 5 5)], [.move .black (.move 5 2)], [.move .white (.move 1 4)],
   [.move .black (.move 2 1)], [.move .white (.move 1 5)], [.move .black (.move 9 15)], [.move .white (.move 2 6)],
   [.move .black (.move 8 3)], [.move .white (.move 1 7)], [.move .black (.move 11 3)], [.move .white (.move 15 3)],
   [.move .black (.move 14 3)], [.move .white (.move 10 4)], [.move .black (.move 10 3)], [.move .white (.move 17 6)],
   [.move .black (.move 16 5)], [.move .white (.move 18 4)], [.move .black (.move 18 5)], [.move .white (.move 18 3)],
   [.move .black (.move 17 3)], [.move .white (.move 17 2)], [.move .black (.move 16 2)], [.move .white (.move 17 5)],
   [.move .black (.move 18 6)], [.move .white (.move 16 6)], [.move .black (.move 17 7)], [.move .white (.move 16 3)],
   [.move .black (.move 16 4)], [.move .white (.move 15 2)], [.move .black (.move 18 2)], [.move .white (.move 16 1)],
   [.move .black (.move 19 4)], [.move .white (.move 14 2)], [.move .black (.move 13 2)], [.move .white (.move 14 1)],
   [.move .black (.move 8 5)], [.move .white (.move 8 6)], [.move .black (.move 9 10)], [.move .white (.move 7 5)],
   [.move .black (.move 8 4)], [.move .white (.move 9 6)], [.move .black (.move 7 7)], [.move .white (.move 7 6)],
   [.move .black (.move 18 12)], [.move .white (.move 16 16)], [.move .black (.move 17 17)], [.move .white (.move 17 12)],
   [.move .black (.move 17 11)], [.move .white (.move 16 11)], [.move .black (.move 16 12)], [.move .white (.move 17 13)],
   [.move .black (.move 17 10)], [.move .white (.move 15 12)], [.move .black (.move 9 12)], [.move .white (.move 8 11)],
   [.move .black (.move 8 10)], [.move .white (.move 10 16)], [.move .black (.move 2 17)], [.move .white (.move 13 17)],
   [.move .black (.move 14 16)], [.move .white (.move 4 15)], [.move .black (.move 7 15)], [.move .white (.move 9 11)],
   [.move .black (.move 10 11)], [.move .white (.move 10 10)], [.move .black (.move 10 9)], [.move .white (.move 11 10)],
   [.move .black (.move 10 12)], [.move .white (.move 5 13)], [.move .black (.move 5 14)], [.move .white (.move 11 9)],
   [.move .black (.move 10 8)], [.move .white (.move 12 7)], [.move .black (.move 4 11)], [.move .white (.move 4 10)],
   [.move .black (.move 5 11)], [.move .white (.move 4 12)], [.move .black (.move 8 12)], [.move .white (.move 7 11)],
   [.move .black (.move 6 12)], [.move .white (.move 6 13)], [.move .black (.move 7 13)], [.move .white (.move 6 11)],
   [.move .black (.move 7 10)], [.move .white (.move 6 12)], [.move .black (.move 10 6)], [.move .white (.move 11 6)],
   [.move .black (.move 10 7)], [.move .white (.move 10 5)], [.move .black (.move 6 8)], [.move .white (.move 8 8)],
   [.move .black (.move 8 7)], [.move .white (.move 9 7)], [.move .black (.move 9 8)], [.move .white (.move 13 18)],
   [.move .black (.move 13 16)], [.move .white (.move 12 16)], [.move .black (.move 12 17)], [.move .white (.move 12 18)],
   [.move .black (.move 16 9)], [.move .white (.move 14 10)], [.move .black (.move 5 10)], [.move .white (.move 11 8)],
   [.move .black (.move 7 8)], [.move .white (.move 6 3)], [.move .black (.move 6 2)], [.move .white (.move 15 9)],
   [.move .black (.move 3 11)], [.move .white (.move 2 11)], [.move .black (.move 2 12)], [.move .white (.move 2 13)],
   [.move .black (.move 2 10)], [.move .white (.move 1 12)], [.move .black (.move 2 9)], [.move .white (.move 2 8)],
   [.move .black (.move 3 13)], [.move .white (.move 15 4)], [.move .black (.move 15 5)], [.move .white (.move 1 9)],
   [.move .black (.move 4 13)], [.move .white (.move 2 12)], [.move .black (.move 2 18)], [.move .white (.move 16 8)],
   [.move .black (.move 17 9)], [.move .white (.move 14 18)], [.move .black (.move 15 18)], [.move .white (.move 3 9)],
   [.move .black (.move 4 18)], [.move .white (.move 5 18)], [.move .black (.move 12 15)], [.move .white (.move 11 16)],
   [.move .black (.move 14 7)], [.move .white (.move 15 6)], [.move .black (.move 14 5)], [.move .white (.move 15 8)],
   [.move .black (.move 18 1)], [.move .white (.move 17 1)], [.move .black (.move 16 7)], [.move .white (.move 15 7)],
   [.move .black (.move 14 6)], [.move .white (.move 14 8)], [.move .black (.move 13 12)], [.move .white (.move 14 14)],
   [.move .black (.move 3 16)], [.move .white (.move 18 15)], [.move .black (.move 18 16)], [.move .white (.move 18 13)],
   [.move .black (.move 19 11)], [.move .white (.move 12 2)], [.move .black (.move 11 2)], [.move .white (.move 7 3)],
   [.move .black (.move 7 2)], [.move .white (.move 9 2)], [.move .black (.move 9 3)], [.move .white (.move 11 1)],
   [.move .black (.move 10 1)], [.move .white (.move 12 1)], [.move .black (.move 15 11)], [.move .white (.move 15 10)],
   [.move .black (.move 14 11)], [.move .white (.move 14 12)], [.move .black (.move 13 11)], [.move .white (.move 13 10)],
   [.move .black (.move 13 13)], [.move .white (.move 14 15)], [.move .black (.move 13 7)], [.move .white (.move 13 8)],
   [.move .black (.move 4 17)], [.move .white (.move 5 17)], [.move .black (.move 5 19)], [.move .white (.move 6 19)],
   [.move .black (.move 4 19)], [.move .white (.move 10 15)], [.move .black (.move 10 14)], [.move .white (.move 9 14)],
   [.move .black (.move 8 15)], [.move .white (.move 11 14)], [.move .black (.move 10 13)], [.move .white (.move 12 14)],
   [.move .black (.move 13 15)], [.move .white (.move 13 14)], [.move .black (.move 7 19)], [.move .white (.move 6 18)]]

/-- The main line of sgf/sgf_2_2ha.sgf, as the parser delivers it. -/
def sgf2 : List (List Token) :=
  [[.other, .game true, .size 19 19, .other, .other, .other, .other, .handicap 2, .other, .komi (.fin (0 / 1)), .other, .result (.winnerByPoints .black (.fin (1 / 1))), .add .black 4 16, .add .black 16 4],
   [.move .white (.move 3 4)], [.move .black (.move 5 3)], [.move .white (.move 14 3)], [.move .black (.move 17 7)],
   [.move .white (.move 9 3)], [.move .black (.move 17 16)], [.move .white (.move 15 17)], [.move .black (.move 12 17)],
   [.move .white (.move 4 3)], [.move .black (.move 3 13)], [.move .white (.move 17 3)], [.move .black (.move 16 3)],
   [.move .white (.move 17 4)], [.move .black (.move 17 5)], [.move .white (.move 18 5)], [.move .black (.move 17 6)],
   [.move .white (.move 16 2)], [.move .black (.move 15 2)], [.move .white (.move 17 2)], [.move .black (.move 15 3)],
   [.move .white (.move 17 13)], [.move .black (.move 16 15)], [.move .white (.move 17 10)], [.move .black (.move 14 4)],
   [.move .white (.move 5 4)], [.move .black (.move 3 10)], [.move .white (.move 12 16)], [.move .black (.move 11 16)],
   [.move .white (.move 13 17)], [.move .black (.move 12 15)], [.move .white (.move 13 16)], [.move .black (.move 11 17)],
   [.move .white (.move 15 14)], [.move .black (.move 16 17)], [.move .white (.move 11 15)], [.move .black (.move 10 15)],
   [.move .white (.move 11 14)], [.move .black (.move 10 14)], [.move .white (.move 9 16)], [.move .black (.move 11 13)],
   [.move .white (.move 12 14)], [.move .black (.move 10 16)], [.move .white (.move 6 17)], [.move .black (.move 5 17)],
   [.move .white (.move 6 16)], [.move .black (.move 8 17)], [.move .white (.move 9 17)], [.move .black (.move 8 16)],
   [.move .white (.move 4 15)], [.move .black (.move 3 15)], [.move .white (.move 4 14)], [.move .black (.move 3 14)],
   [.move .white (.move 5 18)], [.move .black (.move 4 18)], [.move .white (.move 7 18)], [.move .black (.move 8 18)],
   [.move .white (.move 3 17)], [.move .black (.move 5 19)], [.move .white (.move 4 17)], [.move .black (.move 6 18)],
   [.move .white (.move 5 16)], [.move .black (.move 3 16)], [.move .white (.move 5 18)], [.move .black (.move 12 13)],
   [.move .white (.move 13 14)], [.move .black (.move 5 17)], [.move .white (.move 16 18)], [.move .black (.move 5 18)],
   [.move .white (.move 17 18)], [.move .black (.move 18 6)], [.move .white (.move 14 2)], [.move .black (.move 13 3)],
   [.move .white (.move 13 2)], [.move .black (.move 12 3)], [.move .white (.move 12 2)], [.move .black (.move 15 1)],
   [.move .white (.move 11 3)], [.move .black (.move 18 4)], [.move .white (.move 8 15)], [.move .black (.move 7 15)],
   [.move .white (.move 7 14)], [.move .black (.move 8 14)], [.move .white (.move 9 15)], [.move .black (.move 9 18)],
   [.move .white (.move 6 15)], [.move .black (.move 7 16)], [.move .white (.move 4 10)], [.move .black (.move 3 9)],
   [.move .white (.move 4 12)], [.move .black (.move 3 12)], [.move .white (.move 8 13)], [.move .black (.move 9 14)],
   [.move .white (.move 3 7)], [.move .black (.move 7 13)], [.move .white (.move 6 14)], [.move .black (.move 7 12)],
   [.move .white (.move 7 11)], [.move .black (.move 8 11)], [.move .white (.move 7 10)], [.move .black (.move 6 12)],
   [.move .white (.move 5 12)], [.move .black (.move 5 10)], [.move .white (.move 5 9)], [.move .black (.move 4 9)],
   [.move .white (.move 6 11)], [.move .black (.move 8 12)], [.move .white (.move 5 8)], [.move .black (.move 4 7)],
   [.move .white (.move 4 8)], [.move .black (.move 3 8)], [.move .white (.move 5 7)], [.move .black (.move 2 7)],
   [.move .white (.move 4 6)], [.move .black (.move 8 10)], [.move .white (.move 13 4)], [.move .black (.move 9 6)],
   [.move .white (.move 14 5)], [.move .black (.move 15 5)], [.move .white (.move 15 6)], [.move .black (.move 17 12)],
   [.move .white (.move 16 12)], [.move .black (.move 17 11)], [.move .white (.move 16 11)], [.move .black (.move 18 13)],
   [.move .white (.move 17 14)], [.move .black (.move 18 10)], [.move .white (.move 18 9)], [.move .black (.move 17 9)],
   [.move .white (.move 16 10)], [.move .black (.move 18 11)], [.move .white (.move 18 14)], [.move .black (.move 2 6)],
   [.move .white (.move 15 4)], [.move .black (.move 7 9)], [.move .white (.move 5 11)], [.move .black (.move 14 4)],
   [.move .white (.move 8 8)], [.move .black (.move 9 8)], [.move .white (.move 15 4)], [.move .black (.move 16 5)],
   [.move .white (.move 8 7)], [.move .black (.move 9 7)], [.move .white (.move 8 6)], [.move .black (.move 8 9)],
   [.move .white (.move 17 8)], [.move .black (.move 18 8)], [.move .white (.move 16 9)], [.move .black (.move 19 9)],
   [.move .white (.move 19 13)], [.move .black (.move 19 12)], [.move .white (.move 18 12)], [.move .black (.move 4 13)],
   [.move .white (.move 5 13)], [.move .black (.move 18 13)], [.move .white (.move 19 14)], [.move .black (.move 1 4)],
   [.move .white (.move 2 3)], [.move .black (.move 8 5)], [.move .white (.move 9 5)], [.move .black (.move 10 5)],
   [.move .white (.move 9 4)], [.move .black (.move 7 6)], [.move .white (.move 7 5)], [.move .black (.move 7 7)],
   [.move .white (.move 8 4)], [.move .black (.move 4 11)], [.move .white (.move 6 9)], [.move .black (.move 7 8)],
   [.move .white (.move 19 10)], [.move .black (.move 17 9)], [.move .white (.move 18 3)], [.move .black (.move 19 5)],
   [.move .white (.move 18 9)], [.move .black (.move 19 8)], [.move .white (.move 17 9)], [.move .black (.move 13 10)],
   [.move .white (.move 18 12)], [.move .black (.move 5 14)], [.move .white (.move 6 13)], [.move .black (.move 18 13)],
   [.move .white (.move 13 12)], [.move .black (.move 13 13)], [.move .white (.move 14 13)], [.move .black (.move 12 12)],
   [.move .white (.move 18 12)], [.move .black (.move 13 7)], [.move .white (.move 13 11)], [.move .black (.move 12 11)],
   [.move .white (.move 14 10)], [.move .black (.move 14 11)], [.move .white (.move 14 12)], [.move .black (.move 14 9)],
   [.move .white (.move 13 9)], [.move .black (.move 12 10)], [.move .white (.move 14 8)], [.move .black (.move 15 10)],
   [.move .white (.move 13 8)], [.move .black (.move 12 8)], [.move .white (.move 12 7)], [.move .black (.move 12 9)],
   [.move .white (.move 11 6)], [.move .black (.move 10 6)], [.move .white (.move 11 8)], [.move .black (.move 11 7)],
   [.move .white (.move 12 6)], [.move .black (.move 18 13)], [.move .white (.move 19 4)], [.move .black (.move 19 3)],
   [.move .white (.move 18 12)], [.move .black (.move 5 15)], [.move .white (.move 7 17)], [.move .black (.move 7 19)],
   [.move .white (.move 6 10)], [.move .black (.move 19 2)], [.move .white (.move 10 7)], [.move .black (.move 11 9)],
   [.move .white (.move 12 18)], [.move .black (.move 11 18)], [.move .white (.move 2 5)], [.move .black (.move 1 5)],
   [.move .white (.move 1 3)], [.move .black (.move 18 13)], [.move .white (.move 3 18)], [.move .black (.move 2 18)],
   [.move .white (.move 18 12)], [.move .black (.move 6 6)], [.move .white (.move 3 6)], [.move .black (.move 6 5)],
   [.move .white (.move 6 4)], [.move .black (.move 18 13)], [.move .white (.move 8 19)], [.move .black (.move 9 19)],
   [.move .white (.move 18 12)], [.move .black (.move 14 4)], [.move .white (.move 13 5)], [.move .black (.move 18 13)],
   [.move .white (.move 2 8)], [.move .black (.move 2 9)], [.move .white (.move 18 12)], [.move .black (.move 8 5)],
   [.move .white (.move 8 6)], [.move .black (.move 13 18)], [.move .white (.move 14 18)], [.move .black (.move 12 19)],
   [.move .white (.move 19 11)], [.move .black (.move 11 5)], [.move .white (.move 12 5)], [.move .black (.move 15 7)],
   [.move .white (.move 14 7)], [.move .black (.move 16 6)], [.move .white (.move 15 11)], [.move .black (.move 14 6)],
   [.move .white (.move 15 8)], [.move .black (.move 14 10)], [.move .white (.move 4 10)], [.move .black (.move 1 8)],
   [.move .white (.move 3 11)], [.move .black (.move 2 11)], [.move .white (.move 1 6)], [.move .black (.move 1 7)],
   [.move .white (.move 4 11)], [.move .black (.move 8 7)], [.move .white (.move 8 5)], [.move .black (.move 5 5)],
   [.move .white (.move 4 5)], [.move .black (.move 10 8)], [.move .white (.move 11 7)], [.move .black (.move 14 1)],
   [.move .white (.move 13 1)], [.move .black (.move 10 4)], [.move .white (.move 10 3)], [.move .black (.move 11 4)],
   [.move .white (.move 12 4)], [.move .black (.move 14 19)], [.move .white (.move 15 19)], [.move .black (.move 13 19)],
   [.move .white (.move 15 4)]]

/-- The main line of the string in `four_in_the_corner_super_ko`, tests/general_tests.rs, as the parser delivers it. -/
def sgfFour : List (List Token) :=
  [[.game true, .other, .size 11 11, .other, .other, .other, .other, .other, .unknown "PL" "W", .add .black 4 3, .add .black 4 4, .add .black 4 5, .add .black 4 6, .add .black 3 7, .add .black 5 7, .add .black 4 8, .add .black 4 9, .add .black 4 10, .add .white 5 6, .add .white 6 6, .add .white 7 6, .add .white 8 6, .add .white 7 7, .add .white 5 8, .add .white 6 8, .add .white 7 8, .add .white 8 8],
   [.move .white (.move 9 7), .other, .other], []]

end Model.Tests
