# Does the model say what the code says?

The Rust code cannot be built here, so nothing but reading ties the Lean model to it. This directory is a second reading: `port.py`
follows the Rust sources statement by statement, written from them and not from the model (by the same reader), and `compare.py` runs random sessions on both
and compares the complete internal state (colours, groups, liberty lists, slots, hash, history, prisoners, ko point, outcome) after
every call, and the answers of the queries (legal moves, territories, scores, liberties, eyes, floating stones, ...).

Sessions start from new games, from the builder with and without repeated points, and from slices, in both build profiles. They use
play, try_play, pass, resign, resume, set_komi and put_handicap, coordinates on and off the board, and boards that are square (`sq`),
whose width divides the height (`fit`), of any size (`any`), and up to 19 by 19 (`big`). `sgf` imports random
main lines of records, as the parser delivers them. Panics and endless loops are compared too. After a panic of play, try_play or put_handicap
the state that the call has left is compared (`Model/Unwind.lean`, `Model/UnwindHandicap.lean`) and the session goes on with it. It ends
if the panic came in the walk of `update_chain_indexes_in_board`, which that model does before the writes.

`run.sh 1 60` builds the driver (`Driver.lean.txt`) from `lean/Verif/Model` and runs seeds 1 to 60. It is a test, not a proof; no
theorem depends on it. It found two places where the model evaluated eagerly and the code lazily (`has_liberties` and the eye test
on boards already damaged in release builds, and the loop of `remove_chain`, which runs its body between the steps of the walk); the
model now follows the code there.
