{"id": "C01", "title": "Goban::push sets exactly one intersection", "statement": "On an n x n Goban (1<=n<=19) built by Goban::new and any sequence of pushes on empty on-board points and chain removals, as long as fewer than 65,535 stones have been pushed in its life (see C27 for the limit), push(p,c) on an empty on-board p does not panic, afterwards get_color(p)=Some(c), and get_color(q) is unchanged for every other on-board q (push itself never captures).", "quantifier": "every board size 1..19, every reachable board, every empty point, both colours, debug and release builds", "why_tests_cant": "the reachable boards are all arrangements with all chain histories (about 3^361 positions, and unboundedly many internal chain tables)", "anchors": ["src/pieces/goban.rs:Goban::push", "src/pieces/goban.rs:push_wth_feedback", "src/pieces/goban.rs:get_color"]}
{"id": "C02", "title": "Recorded groups are exactly the connected components", "statement": "On every reachable board whose width divides its height (square ones included), two stones are recorded in the same group (equal group index) if and only if they are joined by a path of orthogonally adjacent stones of the same colour; every group's colour is the colour of its stones.", "quantifier": "every reachable board and every pair of on-board stones", "why_tests_cant": "connectivity after arbitrary merges is a path-existence statement over all histories", "anchors": ["src/pieces/goban.rs:push_wth_feedback", "src/pieces/goban.rs:merge_strings", "src/pieces/goban.rs:get_connected_groups_idx"]}
{"id": "C03", "title": "Recorded liberties are exactly the empty neighbours of the group", "statement": "On every reachable board whose width divides its height (square ones included), Group::liberties() of each live group lists, strictly increasing, exactly the empty on-board points adjacent to some stone of the group; number_of_liberties() is their number, is_dead() iff there is none, is_atari() iff exactly one, contains_liberty(i) iff i is one.", "quantifier": "every reachable board, every live group, every point", "why_tests_cant": "incremental liberty bookkeeping must agree with a global recount after every history of merges and removals", "anchors": ["src/pieces/group.rs:Group", "src/pieces/goban.rs:push_wth_feedback", "src/pieces/goban.rs:remove_chain", "src/pieces/goban.rs:merge_strings"]}
{"id": "C04", "title": "Iterating a group's stones terminates and lists each stone once", "statement": "On every reachable board whose width divides its height (square ones included) the circular stone iterator of each live group terminates, yields every stone of that group exactly once and nothing else, starts at origin (which is the smallest index), ends at last, and yields exactly num_stones items (its ExactSizeIterator promise).", "quantifier": "every reachable board and every live group", "why_tests_cant": "a corrupted linked list loops forever or drops stones only after particular merge orders", "anchors": ["src/pieces/group.rs:CircularGroupIter", "src/pieces/goban.rs:add_stone_to_chain", "src/pieces/goban.rs:merge_strings", "src/pieces/goban.rs:chain_stones"]}
{"id": "C05", "title": "number_of_stones counts the board", "statement": "On every reachable board whose width divides its height (square ones included) number_of_stones() returns (number of on-board points whose get_color is Black, number whose get_color is White), and their sum is at most height*width.", "quantifier": "every reachable board", "why_tests_cant": "the counts come from per-group counters updated incrementally over any history", "anchors": ["src/pieces/goban.rs:number_of_stones"]}
{"id": "C06", "title": "zobrist_hash is a function of the position only", "statement": "On every reachable board whose width divides its height (square ones included) zobrist_hash() equals the XOR over all stones of index_zobrist(point,colour); hence two reachable boards of the same size showing the same colours have the same hash whatever move orders, captures and removals produced them.", "quantifier": "every pair of reachable boards, i.e. every pair of histories", "why_tests_cant": "quantifies over pairs of unbounded histories", "anchors": ["src/pieces/goban.rs:zobrist_hash", "src/pieces/goban.rs:push_wth_feedback", "src/pieces/goban.rs:remove_chain", "src/pieces/zobrist.rs:index_zobrist"]}
{"id": "C07", "title": "Goban equality is equality of positions and agrees with Hash", "statement": "For reachable boards whose width divides their height (square ones included) a == b holds iff the sizes agree and get_color agrees at every on-board point; == is reflexive, symmetric and transitive, and a == b implies both feed the same value to the hasher.", "quantifier": "every pair (and triple) of reachable boards", "why_tests_cant": "pairs of unbounded histories; internal chain tables differ between equal boards", "anchors": ["src/pieces/goban.rs:PartialEq for Goban", "src/pieces/goban.rs:Hash for Goban"]}
{"id": "C08", "title": "remove_chain removes exactly one group", "statement": "On every reachable board whose width divides its height (square ones included), remove_chain(k) of a live group k does not panic, makes exactly that group's points empty, leaves every other point and every other group's stones unchanged, and adds to each other group exactly the freed points adjacent to it as liberties.", "quantifier": "every reachable board, every live group", "why_tests_cant": "depends on the whole adjacency structure of arbitrary boards", "anchors": ["src/pieces/goban.rs:remove_chain"]}
{"id": "C09", "title": "play implements the capture rule of Go", "statement": "For every game on a board whose width divides its height with a reachable board in which every group has a liberty, and every empty on-board point, play(Play(x,y)) yields exactly the position prescribed by the rules: put the stone, remove every opposing group left without liberties, then, iff the rule allows suicide, remove the mover's group if it has no liberty; nothing else changes. (If groups without liberties were set up beforehand, the same holds with only the opposing groups next to the stone being looked at.)", "quantifier": "every reachable game state, every rule, every empty point", "why_tests_cant": "captures depend on global connectivity; the positions and histories are unbounded in number", "anchors": ["src/rules/game.rs:Game::play", "src/pieces/goban.rs:push_wth_feedback", "src/pieces/goban.rs:remove_captured_stones_aux"]}
{"id": "C10", "title": "try_play never leaves a group without liberties", "statement": "Starting from any game whose groups all have a liberty (e.g. an empty board), after any sequence of successful or failed try_play, pass, resign and resume calls every group on the board has at least one liberty.", "quantifier": "every rule set, every start, every finite sequence of API calls", "why_tests_cant": "invariant over all histories", "anchors": ["src/rules/game.rs:try_play", "src/rules/game.rs:check_suicide", "src/pieces/goban.rs:remove_captured_stones_aux"]}
{"id": "C11", "title": "Prisoner accounting", "statement": "play(Play) increases prisoners().0 by exactly the number of white stones it removes from the board and prisoners().1 by exactly the number of black stones it removes; consequently over any history from an initial game, black stones placed = black stones on the board + increase of prisoners().1, and symmetrically for white.", "quantifier": "every reachable game, every move sequence", "why_tests_cant": "conservation law over unbounded histories", "anchors": ["src/rules/game.rs:remove_captured_stones", "src/pieces/goban.rs:remove_captured_stones_aux", "src/rules/game.rs:prisoners"]}
{"id": "C12", "title": "check_suicide is exact", "statement": "In every game where all groups have liberties and for every empty on-board point and colour, check_suicide returns true iff placing that stone and removing opposing groups without liberties leaves the placed stone's group with no liberty.", "quantifier": "every such game, point and colour", "why_tests_cant": "global property of the position reached after a hypothetical capture", "anchors": ["src/rules/game.rs:check_suicide"]}
{"id": "C13", "title": "try_play decides legality, and rejects without side effects", "statement": "On any game reached with try_play, resume and set_komi from a start without dead groups, try_play(Play(x,y)) at an on-board point: returns GamePaused iff two passes are pending; otherwise PointNotEmpty iff occupied; otherwise Suicide iff the rule forbids suicide and the move is one; otherwise Ko / FillEye / Ko (super-ko) according to the rule flags in that order; otherwise Ok with exactly the state play would produce. Whenever it returns Err the game is unchanged.", "quantifier": "every reachable game, every on-board move, every combination of rule flags", "why_tests_cant": "all states x all flag combinations", "anchors": ["src/rules/game.rs:try_play", "src/rules/game.rs:check_point_by"]}
{"id": "C14", "title": "check_ko is exactly the immediate recapture rule", "statement": "After a legal play that captured, for the next player and any empty on-board point p where a play is not suicide: check_ko at p is true iff playing p would restore exactly the position before the previous play.", "quantifier": "every legal game state, every capturing play, every reply", "why_tests_cant": "relates positions two plies apart over all boards; the code only keeps one point and tests atari of neighbours", "anchors": ["src/rules/game.rs:check_ko", "src/pieces/goban.rs:remove_captured_stones_aux"]}
{"id": "C15", "title": "Super-ko: no earlier position is ever recreated", "statement": "Under a rule with SUPERKO, try_play(Play) never succeeds when the resulting board equals a board from which an earlier stone was played; and check_super_ko is true iff the resulting board is such an earlier one.", "quantifier": "every game history from an initial game, every move", "why_tests_cant": "quantifies over the whole history", "anchors": ["src/rules/game.rs:check_super_ko", "src/rules/game.rs:play_for_verification"]}
{"id": "C16", "title": "Turn order and passes", "statement": "play(Play) and play(Pass) hand the turn to the other colour and Resign does not; a Play resets the pass count to 0, Pass increments it, two consecutive passes make is_over() true, passes never exceeds 2 through try_play, and while two passes are pending try_play returns GamePaused for every move until resume() is called; a pass never changes the board, the prisoners or the history.", "quantifier": "every game state and every call sequence", "why_tests_cant": "state machine invariant over all call sequences", "anchors": ["src/rules/game.rs:play", "src/rules/game.rs:try_play", "src/rules/game.rs:resume", "src/rules/game.rs:is_over"]}
{"id": "C17", "title": "legals() is exactly the set of moves try_play accepts", "statement": "In every reachable game that is not paused, legals() lists, without repetition and in row-major order, exactly the on-board points at which try_play(Play) would succeed; legals_by(f) is the sub-list of empty points whose check under f is None, and adding flags can only shrink it. In games so long that the group table is full, legals() lists exactly the points at which try_play does not refuse, that is, accepts or panics; and if legals() panics, try_play panics at some point.", "quantifier": "every reachable game on a square board with fewer than 65,535 stones put, every flag set; the last part for games of any length, on every admissible board size (for the points of the first w rows)", "why_tests_cant": "set equality over all positions and histories", "anchors": ["src/rules/game.rs:legals", "src/rules/game.rs:legals_by", "src/rules/game.rs:check_point_by"]}
{"id": "C18", "title": "pseudo_legals lists every empty point once", "statement": "On every reachable square board get_empty_coords()/pseudo_legals() lists exactly the empty on-board points, each once, in row-major order, and pseudo_legals_vec() returns the same list.", "quantifier": "every reachable board, both build profiles", "why_tests_cant": "all positions; index arithmetic per size", "anchors": ["src/pieces/goban.rs:get_empty_coords", "src/rules/game.rs:pseudo_legals", "src/rules/game.rs:pseudo_legals_vec"]}
{"id": "C19", "title": "get_group_from_point computes the connected component and terminates", "statement": "On every reachable board whose width divides its height (square ones included) and for every on-board point with its actual colour (including EMPTY), get_group_from_point terminates and returns exactly the points connected to it through points of the same colour. Asked with another colour than the board shows, it still terminates and returns the point itself and the points of the asked colour connected, through points of that colour, to a neighbour of it.", "quantifier": "every reachable board, every point, every colour asked for", "why_tests_cant": "termination and path-existence over all boards; the work list may hold duplicates", "anchors": ["src/pieces/territory.rs:get_group_from_point"]}
{"id": "C20", "title": "Territories are exactly the one-colour-bordered empty regions", "statement": "get_territories() returns as black (white) territory exactly the empty points whose connected empty region touches at least one black (white) stone and no white (black) stone, each once; the two are disjoint; calculate_territories() returns their sizes, and the result does not depend on hash-set iteration order.", "quantifier": "every square board reachable through the API, every iteration order of the hash sets (other sizes: C92 and C100, where the claim fails)", "why_tests_cant": "region connectivity on all boards and all iteration orders", "anchors": ["src/pieces/territory.rs:get_territories", "src/pieces/territory.rs:calculate_territories", "src/pieces/territory.rs:get_chains_from_stones"]}
{"id": "C21", "title": "calculate_score follows the score flags", "statement": "calculate_score_by(f) is (territory_b [+ prisoners.0] [+ black stones], territory_w [+ prisoners.1] [+ white stones] [+ komi]) where each bracket is present iff its flag is, computed without rounding error whenever the komi is a multiple of 1/2 below 2^20 in size and prisoners are below 2^20.", "quantifier": "every reachable game on a square board, every flag set, every such komi (other sizes: C92 and C100, with the territory counted there)", "why_tests_cant": "all positions and all f32 komi values", "anchors": ["src/rules/game.rs:calculate_score_by", "src/rules/mod.rs:ScoreRules"]}
{"id": "C22", "title": "outcome names the right winner", "statement": "outcome() is None iff the game is not over (for every komi); after a resignation it is that recorded result; after two passes it is Draw iff the scores are equal, otherwise WinnerByScore(side with the larger score, exact difference), for every komi that is a multiple of 1/2 below 2^20 in size (for other komi values, such as NaN or 2^-24, the last part is false).", "quantifier": "every reachable game, every komi that is a multiple of 1/2 below 2^20 (square boards, except for the first two claims; other boards in C92)", "why_tests_cant": "float comparison over all scores", "anchors": ["src/rules/game.rs:outcome", "src/rules/mod.rs:EndGame"]}
{"id": "C23", "title": "to_vec / From round-trip", "statement": "For every reachable board g, Goban::from(g.to_vec().as_slice()) == g.", "quantifier": "every board size and every reachable board", "why_tests_cant": "all positions; replays stones in index order without captures", "anchors": ["src/pieces/goban.rs:From<&[MaybeColor]> for Goban", "src/pieces/goban.rs:to_vec"]}
{"id": "C24", "title": "Setup is order independent", "statement": "Pushing the same collection of stones on distinct empty points in any two orders yields equal boards (==, same hash, same groups as partitions and same liberties).", "quantifier": "every reachable board, every list of distinct empty points with colours, every permutation", "why_tests_cant": "all permutations of all setups", "anchors": ["src/pieces/goban.rs:push_many", "src/pieces/goban.rs:push_stone", "src/pieces/goban.rs:push"]}
{"id": "C25", "title": "The liberty bitset is a set of indices", "statement": "For every liberty array and indices i,j < 368: set<true>/set<false> change exactly membership of i; merge is union; any/count_ones/iter_ones agree with membership, iter_ones being strictly increasing; indices >= 368 panic. The array a group starts from has 46 bytes and no member.", "quantifier": "every array of 46 bytes, every index", "why_tests_cant": "2^368 arrays", "anchors": ["src/pieces/group.rs:set", "src/pieces/group.rs:merge", "src/pieces/group.rs:iter_ones", "src/pieces/group.rs:count_ones", "src/pieces/group.rs:get"]}
{"id": "C26", "title": "Coordinate conversions are inverse bijections for every supported size", "statement": "For every size (h,w) with 1<=h,w<=19, two_to_1dim is injective on on-board coordinates with values < 361 and one_to_2dim inverts it, so that the first stone on an empty board has every adjacent point among its liberties.", "quantifier": "every supported size, square or not, and every on-board coordinate", "why_tests_cant": "stated for all sizes and all points; repository tests only use square boards", "anchors": ["src/pieces/util.rs:two_to_1dim", "src/pieces/util.rs:one_to_2dim"]}
{"id": "C27", "title": "Legal use never panics", "statement": "On square boards no call of new, push on an empty point, play/try_play on on-board points (play: empty), pass, legals, territories, scores or equality panics or loops forever, in debug or release builds, however long the game.", "quantifier": "every legal call sequence of any length, both build profiles", "why_tests_cant": "unbounded sequences; the group table index is a 16-bit non-max integer", "anchors": ["src/pieces/goban.rs:update_chain_indexes_in_board", "src/pieces/group.rs:put_free_spot", "src/pieces/goban.rs:check_integrity_all"]}
{"id": "C28", "title": "play_for_verification predicts play", "statement": "For every reachable game and every move accepted by try_play, play_for_verification(p) equals (==) the board that play(Play(p)) produces, whatever the rule flags.", "quantifier": "every reachable game, every legal move, every rule", "why_tests_cant": "all states; the two call sites pass different suicide flags", "anchors": ["src/rules/game.rs:play_for_verification", "src/rules/game.rs:remove_captured_stones"]}
{"id": "C29", "title": "GameBuilder builds what its setters say", "statement": "Call the setters of a default builder (19 x 19, Chinese rule) in any order and number; for each setter the last call counts, stones given to add() are collected. On a board with sides at most 19 whose width divides its height with distinct on-board handicap and setup points, build() returns a game on an empty board of the given size with the handicap points as black stones and setup stones added, komi override applied, turn = explicit turn, else White iff handicap != 0, outcome as given, then all moves applied with play; the builder itself is reset to its default. Moves that try_play would accept never make build() panic; three passes in a row always do.", "quantifier": "every sequence of setter calls that gives a size whose width divides its height, sides at most 19, and distinct on-board points, every move list", "why_tests_cant": "all configurations and move lists", "anchors": ["src/rules/game_builder.rs:build", "src/rules/game_builder.rs:build_inner"]}
{"id": "C30", "title": "SGF import maps tokens to the builder faithfully", "statement": "from_sgf on a parsed main line produces the game obtained by applying root properties and then exactly the moves of the game record in order, each by the recorded player at (line-1, col-1).", "quantifier": "every parsed node list", "why_tests_cant": "all token sequences", "anchors": ["src/rules/sgf_bridge.rs:from_sgf", "src/rules/sgf_bridge.rs:From<Action> for Move"]}
{"id": "C31", "title": "check_eye only accepts surrounded empty points", "statement": "check_eye(p,c) is true only if p is empty and every orthogonal on-board neighbour of p holds colour c, and it is true whenever in addition all four diagonal corners are off-board or colour c; so a FILLEYE rule never forbids a capturing move.", "quantifier": "every reachable board, point, colour", "why_tests_cant": "all local and two-step configurations on all boards", "anchors": ["src/rules/game.rs:check_eye", "src/rules/game.rs:helper_check_eye"]}
{"id": "C32", "title": "Neighbour queries are exact", "statement": "For an on-board point, get_connected_points lists exactly its on-board orthogonal neighbours (2 to 4 of them when both sides are at least 2), each once, with its current colour; get_connected_stones are those that hold a stone; get_liberties those that are empty; has_liberties iff that list is non-empty; get_connected_groups_idx are the distinct groups of the neighbouring stones.", "quantifier": "every reachable board and point", "why_tests_cant": "all sizes, points and positions; includes u8 wrap-around at the edges", "anchors": ["src/pieces/goban.rs:get_connected_points", "src/pieces/goban.rs:get_liberties", "src/pieces/util.rs:valid_coords", "src/pieces/goban.rs:get_connected_groups_idx"]}
{"id": "C33", "title": "get_coords_by_color / get_stones_by_color list the points of a colour", "statement": "For every reachable square board and each of Black, White and EMPTY, get_coords_by_color lists exactly the on-board points with that colour, in row-major order.", "quantifier": "every board size, position and colour, both build profiles", "why_tests_cant": "all positions and sizes (a u8 product bounds the loop)", "anchors": ["src/pieces/goban.rs:get_coords_by_color", "src/pieces/goban.rs:get_stones_by_color"]}
{"id": "C34", "title": "get_stones lists every stone once", "statement": "get_stones() lists exactly the on-board points holding a stone with their colours, each once, in row-major order; to_vec()/get_color agree with it.", "quantifier": "every reachable board for get_stones; to_vec for square boards (for the others C83)", "why_tests_cant": "all positions", "anchors": ["src/pieces/goban.rs:get_stones", "src/pieces/goban.rs:to_vec"]}
{"id": "C35", "title": "get_empty_idx lists empty points", "statement": "get_empty_idx() yields exactly the indices of the empty on-board points.", "quantifier": "every reachable board", "why_tests_cant": "all positions", "anchors": ["src/pieces/goban.rs:get_empty_idx"]}
{"id": "C36", "title": "matrix() has the shape and content of the board", "statement": "matrix() has h rows of w entries and entry (r,c) is get_color((r,c)).", "quantifier": "every board size and position", "why_tests_cant": "all sizes and positions", "anchors": ["src/pieces/goban.rs:matrix"]}
{"id": "C37", "title": "pretty_string draws the board", "statement": "pretty_string() consists of h lines of w characters; the character at (r,c) is the black disc iff get_color is Black, the white circle iff White, otherwise the grid glyph for that edge/corner; so two boards of equal size print alike iff they are ==.", "quantifier": "every board size with sides from 1 to 19 whose width divides its height, every position", "why_tests_cant": "all positions", "anchors": ["src/pieces/goban.rs:pretty_string"]}
{"id": "C38", "title": "A finished game stays finished", "statement": "After Resign(c), is_over() is true and outcome() is WinnerByResign(c) whatever calls follow; and no further stone can be placed by try_play once is_over() is true (until resume after two passes).", "quantifier": "every call sequence after a resignation or two passes", "why_tests_cant": "all continuations", "anchors": ["src/rules/game.rs:play", "src/rules/game.rs:is_over", "src/rules/game.rs:outcome", "src/rules/game.rs:try_play"]}
{"id": "C39", "title": "will_capture is exact", "statement": "For every game with reachable board where all groups have liberties and every empty on-board point, will_capture(p) is true iff play(Play(p)) removes at least one opposing stone.", "quantifier": "every such game and point", "why_tests_cant": "all positions", "anchors": ["src/rules/game.rs:will_capture"]}
{"id": "C40", "title": "Off-board coordinates are rejected", "statement": "play and try_play with a coordinate outside the board panic (as documented) or return an error, and never change the board.", "quantifier": "every board size, every off-board coordinate", "why_tests_cant": "all off-board coordinates and positions", "anchors": ["src/rules/game.rs:play", "src/rules/game.rs:try_play", "src/pieces/util.rs:two_to_1dim"]}
{"id": "C41", "title": "No two-ply repetition under the ko rule", "statement": "Under any rule that forbids KO and SUICIDE, if two consecutive try_play(Play) calls succeed then the resulting position differs from the position before the first.", "quantifier": "every legal game state, every pair of moves", "why_tests_cant": "pairs of moves on all positions", "anchors": ["src/rules/game.rs:check_ko", "src/rules/game.rs:try_play"]}
{"id": "C42", "title": "history is the ordered set of positions played from", "statement": "The internal/`history`-feature history holds, in order of first occurrence and without repetition (==), exactly the boards from which a stone was played since the game was created; it is never shortened.", "quantifier": "every call sequence", "why_tests_cant": "all histories", "anchors": ["src/rules/game.rs:history", "src/rules/game.rs:play"]}
{"id": "C43", "title": "put_handicap equals builder handicap and gives White the move", "statement": "Game::put_handicap(ps) on a new game and GameBuilder::put_handicap(ps) produce, for every non-empty list ps, equal boards with a black stone on each (distinct) point and White to move; the komi is unchanged. (For the empty list they differ in who is to move.)", "quantifier": "every list of distinct on-board points", "why_tests_cant": "all handicap lists", "anchors": ["src/rules/game.rs:put_handicap", "src/rules/game_builder.rs:put_handicap"]}
{"id": "C44", "title": "Colour symmetry", "statement": "Exchanging the two colours everywhere (board and side to move) commutes with playing: the resulting position, captures, prisoners and legality verdicts are those of the original game with colours exchanged; scores in which komi does not count are exchanged. If as many stones that did not join exactly one group were put on the one board as on the other, the exchanged calls return together or panic together, however many.", "quantifier": "every reachable game and move on every admissible board size; sequences of calls of any length", "why_tests_cant": "all positions", "anchors": ["src/rules/game.rs:play", "src/rules/game.rs:try_play"]}
{"id": "C45", "title": "get_floating_stones returns the groups without two eyes", "statement": "get_floating_stones() returns exactly the indices (usable with chain_stones/remove_chain) of live groups that are not adjacent to two distinct eyes, and dead_stones can look each of them up without panicking.", "quantifier": "every reachable game", "why_tests_cant": "all positions and chain tables", "anchors": ["src/rules/dead_stones.rs:get_floating_stones"]}
{"id": "C46", "title": "Play-out moves are legal and never fill an own eye", "statement": "For every shuffle of the candidate points, the play-out policy returns a legal non-eye-filling move if one exists and Pass otherwise; GameTrait::legals_moves is empty only if the game is over. However long the game: whatever move the policy returns is a point that is no own eye and that try_play accepts, or at which it panics because the group table is full, or a pass, and then try_play refuses every point but own eyes.", "quantifier": "every reachable game on a square board, every shuffle; that a move is returned, with fewer than 65,535 stones put", "why_tests_cant": "all permutations of candidates on all positions", "anchors": ["src/rules/dead_stones.rs:fast_play_random", "src/rules/dead_stones.rs:legals_moves"]}
{"id": "C47", "title": "chain_stones lists the group of the given index", "statement": "For a live group index k, chain_stones(k) lists each stone of the group once with its colour; for a coordinate it lists the group at that point.", "quantifier": "every reachable board, every index or coordinate", "why_tests_cant": "all boards and chain tables", "anchors": ["src/pieces/goban.rs:chain_stones"]}
{"id": "C48", "title": "Zobrist keys are pairwise distinct and non-zero", "statement": "index_zobrist(i,c) is defined for every i<361 and both colours, all 722 values are distinct and non-zero, so boards differing in exactly one intersection always have different hashes; the hash alone is nevertheless not injective on positions.", "quantifier": "all point/colour pairs and all pairs of positions differing in one intersection", "why_tests_cant": "pairs of positions are unbounded in practice (3^361)", "anchors": ["src/pieces/zobrist.rs:ZOBRIST", "src/pieces/zobrist.rs:index_zobrist"]}
{"id": "C49", "title": "Every game is a run of the abstract game of Go", "statement": "For every finite sequence of API calls (try_play, resume, set_komi) from a new game, the observable state (colours, turn, passes, prisoners, outcome) equals the state of the textbook abstract game run on the same accepted moves, and the sequence of Ok/Err answers is the one the abstract game gives for suicide and occupied points.", "quantifier": "every finite call sequence, every size whose width divides its height, every rule", "why_tests_cant": "refinement over unbounded histories", "anchors": ["src/rules/game.rs:try_play", "src/rules/game.rs:play"]}
{"id": "C50", "title": "Using play on an occupied point", "statement": "play(Play(x,y)) on an occupied point does not corrupt the board: afterwards number_of_stones still equals the number of coloured points.", "quantifier": "every reachable game and occupied point", "why_tests_cant": "all positions", "anchors": ["src/rules/game.rs:play", "src/pieces/goban.rs:push"]}
{"id": "C51", "title": "Every finished play-out can be evaluated", "statement": "The evaluation of the Monte-Carlo search, applied to any finished game, returns 1 if the given player has won and 0 otherwise, without panicking.", "quantifier": "every reachable finished game, both players, every iteration order of the hash sets", "why_tests_cant": "drawn games are rare with the usual komi and the play-outs are random", "anchors": ["src/rules/dead_stones.rs:evaluate_leaf", "src/rules/dead_stones.rs:get_winner"]}
{"id": "C52", "title": "Board symmetry", "statement": "Turning or reflecting the board commutes with playing: the same calls on the turned board get the same answers, positions stay turned images of each other with equal turn, passes, prisoners and outcome, the accepted points and the territories are the turned ones, and the scores are equal. If as many stones that did not join exactly one group were put on the one board as on the other, the turned calls return together or panic together, however many.", "quantifier": "every board of an admissible size for the calls and the accepted points, every square board for territories and scores; every symmetry of the board, every pair of fresh games that are images of each other, every sequence of calls", "why_tests_cant": "all positions, sequences and symmetries; the order in which neighbours and corners are visited is hidden", "anchors": ["src/rules/game.rs:try_play", "src/rules/game.rs:check_eye", "src/pieces/territory.rs:get_territories"]}
{"id": "C53", "title": "A new game is on the board asked for", "statement": "Game::new(size, rule) either panics, which happens iff a side exceeds 19, or returns a game on an empty board of exactly the sides asked for, Black to move, no prisoners, no history, not over, under the given rule; GobanSizes::from(x) is the x by x board and panics unless x is 9, 13 or 19.", "quantifier": "every size that GobanSizes can hold (any two usize values) and every rule", "why_tests_cant": "unbounded sizes; casts wrap silently", "anchors": ["src/rules/game.rs:new", "src/rules/mod.rs:GobanSizes"]}
{"id": "C54", "title": "The named rule sets", "statement": "Rule::from_str accepts exactly JAP and CHI. Games under JAP refuse suicide and the retake of a ko and nothing else but occupied points, and count territory plus prisoners plus 6.5 for White; games under CHI also refuse every earlier position, and count territory plus stones on the board plus 7.5 for White.", "quantifier": "every string; every fresh game under the named rule and every sequence of calls; every reachable game on a square board with fewer than 2^20 prisoners a side for the scores", "why_tests_cant": "all games and positions", "anchors": ["src/rules/mod.rs:JAPANESE", "src/rules/mod.rs:CHINESE", "src/rules/mod.rs:from_str", "src/rules/game.rs:calculate_score"]}
{"id": "C55", "title": "get_winner names the winner", "statement": "After two passes outcome().get_winner() is the side with the larger score and None iff the scores are equal; a recorded result is reported unchanged and its winner is the colour it is in favour of, None iff it is a draw. For every komi: if the scores are finite the winner is the side that leads by at least 2^-23 and there is none iff they differ by less; with an infinite komi that counts it is Black if the komi is minus infinity and White otherwise, and with one that is not a number White.", "quantifier": "first part: every game on a board of every size, over by passes, with a komi that is a multiple of 1/2 below 2^20 and fewer than 2^20 prisoners if they count; second part: every size of board and every komi; every recorded result", "why_tests_cant": "all positions and komi values", "anchors": ["src/rules/mod.rs:get_winner", "src/rules/game.rs:outcome"]}
{"id": "C56", "title": "Whoever resigns loses", "statement": "play(Resign(c)) ends the game at once, leaves board, turn, passes, prisoners and rule alone, and the winner of the recorded outcome is the opponent of c.", "quantifier": "every reachable game and both colours", "why_tests_cant": "the convention is never exercised by a test that names the winner after a resignation", "anchors": ["src/rules/game.rs:play", "src/rules/mod.rs:get_winner"]}
{"id": "C57", "title": "Play-outs end", "statement": "Whatever the calls and the rule, at most 131070*(a+1)+a stones can be played on a board of a points in the life of a game. Hence the loop of the random play-out used for dead stones stops after a bounded number of rounds under every rule and for every sequence of shuffles, and it returns a game that is over.", "quantifier": "every game reachable with play on empty points, every legal game as start of a play-out, every sequence of shuffles", "why_tests_cant": "termination for all random choices; the failure needs tens of thousands of stones", "anchors": ["src/rules/dead_stones.rs:playout", "src/rules/game.rs:play", "src/pieces/group.rs:put_free_spot"]}
{"id": "C58", "title": "Super-ko makes games finite", "statement": "Under a rule that forbids super-ko and suicide (the Chinese rule is one), a game started on an empty board with a points, whose width divides its height, accepts at most a*3^(a-1)+3 stones through try_play, whatever passes, refused moves, resumptions and resignations come in between. On boards with at most nine points (3 x 3, 4 x 2, 9 x 1, ...) such a game therefore never panics. If suicide is allowed the bound fails.", "quantifier": "every size whose width divides its height, every sequence of on-board calls, both build profiles", "why_tests_cant": "all call sequences; the bound is exponential in the number of points", "anchors": ["src/rules/game.rs:check_super_ko", "src/rules/game.rs:try_play", "src/rules/mod.rs:CHINESE"]}
{"id": "C59", "title": "Area and territory counting differ by the stones put", "statement": "Black's lead counted by area (territory and stones) minus Black's lead counted by territory (territory and prisoners) is the number of black stones put minus the number of white stones put, setup stones included.", "quantifier": "every game on a board of every size, from every start (builder and handicap included), by plays on empty cells, with a komi that is a multiple of 1/2 below 2^20 and fewer than 2^20 stones put by each side", "why_tests_cant": "all positions, captures and komi values", "anchors": ["src/rules/game.rs:calculate_score_by", "src/rules/game.rs:play"]}
{"id": "C60", "title": "Area scores share out the board", "statement": "Counted by area without komi, the two scores are whole numbers that add up to n^2 minus the number of empty points that are nobody's territory.", "quantifier": "every reachable game on a square board and every visiting order of the regions", "why_tests_cant": "all positions", "anchors": ["src/rules/game.rs:calculate_score_by", "src/pieces/territory.rs:get_territories"]}
{"id": "C61", "title": "A board is determined by its stones", "statement": "Boards that are equal have the same groups, with the same stones, liberties and colour, however they came about. Pushing the stones listed by get_stones, in any order, on a new board of the same size never panics and gives a board equal to the original.", "quantifier": "every pair of reachable boards, every order of the stones, every mix of build profiles", "why_tests_cant": "all histories of pushes and removals that lead to the same position", "anchors": ["src/pieces/goban.rs:get_stones", "src/pieces/goban.rs:push", "src/pieces/goban.rs:eq"]}
{"id": "C62", "title": "Games that show the same behave the same", "statement": "Two games with equal boards, player to move, passes, prisoners, recorded result, forbidden moves, ko point and position histories give the same answers to every sequence of try_play, resume and set_komi calls and still show the same afterwards; they have the same legal moves, and with the same komi the same score. One may run with debug assertions and the other without. A sequence that is too long for the group table panics in both if the two games put equally many stones that did not join exactly one group of their colour. If those numbers differ, every sequence on which one of the games panics has a part, from its beginning, on which exactly one of them does.", "quantifier": "every pair of games reached by try_play, every sequence of on-board calls of any length; legal moves for games of any length; scores for every reachable pair and every komi; every admissible board size", "why_tests_cant": "all pairs of histories leading to the same state, in both build profiles", "anchors": ["src/rules/game.rs:try_play", "src/rules/game.rs:legals_by", "src/rules/game.rs:calculate_score_by"]}
{"id": "C63", "title": "Debug assertions never change a result", "statement": "Whenever a call returns a value in a build with debug assertions and overflow checks, it returns the same value in a release build. This holds for boards, games, builders and imported records in every state, reachable or not. The two builds reach the same boards and games, and on every game that can be reached they give the same answers and the same game, or panic together, for every sequence of on-board calls.", "quantifier": "every state and every argument; the converse for all states that can be reached and on-board calls, however many", "why_tests_cant": "tests run in one profile; all states and arguments", "anchors": ["src/pieces/group.rs:remove_liberty", "src/pieces/goban.rs:check_integrity_all", "src/pieces/goban.rs:push", "src/pieces/util.rs:neighbor_coords"]}
{"id": "C64", "title": "The komi that counts is the one set last", "statement": "After any sequence of try_play, resume and set_komi calls the rule of the game is the one it started with, except that the komi is the argument of the last set_komi, if there was one. set_komi changes nothing else, and White's score counted with komi is White's score counted without komi plus the new komi: exactly if the komi is a multiple of 1/2 below 2^20 and there are fewer than 2^20 prisoners if they count, rounded to single precision for every finite komi, and the komi itself if it is infinite or not a number.", "quantifier": "every state and every sequence of calls; the score for every game on a board of every size and every komi", "why_tests_cant": "all call sequences and komi values", "anchors": ["src/rules/game.rs:set_komi", "src/rules/game.rs:komi", "src/rules/game.rs:calculate_score_by"]}
{"id": "C65", "title": "Every question returns", "statement": "On every reachable board and game whose width divides its height, every question about on-board points, live groups, territories, scores, legal moves, eyes and dead groups returns a value: it neither panics nor runs for ever. The only exceptions are: matrix(), which panics exactly for a board without columns; the lists of points by colour and pseudo_legals_vec, which panic exactly in a build with overflow checks on boards of 256 points or more; and the questions that try a move on a copy of the board, which may panic once 65535 stones have been put.", "quantifier": "every reachable board and game, every on-board point, colour, rule set and iteration order", "why_tests_cant": "absence of panics and of endless loops over all reachable states", "anchors": ["src/pieces/goban.rs", "src/pieces/territory.rs", "src/rules/game.rs", "src/rules/dead_stones.rs:get_floating_stones"]}
{"id": "C66", "title": "The stone iterator, call by call", "statement": "Calling next() on the iterator of chain_stones for a group of the board returns its stones, each once, and then None on every further call; size_hint() tells at any moment how many stones are still to come.", "quantifier": "every reachable board, every group, every number of calls", "why_tests_cant": "all groups and all numbers of calls, also after the end", "anchors": ["src/pieces/group.rs:CircularGroupIter", "src/pieces/goban.rs:chain_stones"]}
{"id": "C67", "title": "The simulation behind dead_stones", "statement": "dead_stones_wth_simulations plays its copy of the game to the end with moves that try_play would accept, none of them in an eye of the player; whatever the search prefers, the loop ends within a number of rounds that depends on the board size only, without panicking, and the call returns exactly those floating groups of which the final board has lost a stone. Asked of a finished game it returns no group.", "quantifier": "every game reached by legal calls, every rule, every choice the search makes among the listed moves", "why_tests_cant": "the search is random: a test sees one sequence of choices out of all of them, and the panic needs tens of thousands of rounds", "anchors": ["src/rules/dead_stones.rs:dead_stones_wth_simulations", "src/rules/dead_stones.rs:legals_moves", "src/rules/game.rs:play"]}
{"id": "C68", "title": "Two eyes live", "statement": "A group with two eyes (more generally: stones that live by two regions in the sense of Benson's criterion) keeps all its stones as long as its own player does not play into those eyes or regions, whatever the opponent asks try_play for and under every rule; the eyes stay empty, and an opposing stone in an eye is refused as suicide where suicide is forbidden. If the eyes have no foreign stone on their corners, neither the play-outs nor the loop behind dead_stones ever take the group, so dead_stones never names it.", "quantifier": "every game reached by legal calls, every rule, every board size whose width divides the height, every later sequence of calls and every choice of the search", "why_tests_cant": "all later sequences of calls, of any length, by both players", "anchors": ["src/rules/game.rs:try_play", "src/rules/game.rs:check_eye", "src/pieces/goban.rs:push_wth_feedback", "src/rules/dead_stones.rs:dead_stones_wth_simulations", "src/rules/dead_stones.rs:playout"]}
{"id": "C69", "title": "The positions that can be played", "statement": "On every board size the crate accepts whose width divides its height, the positions that try_play can bring about from a new game are exactly those on which every group has a liberty. Each of them is reached with accepted try_play calls only, under every rule (ko, super-ko, suicide and eye filling forbidden or not), with either player to move, without a capture and in at most twice as many calls as stones, plus one.", "quantifier": "every position, every rule, every board size up to 19 whose width divides its height, both colours to move", "why_tests_cant": "all positions and, for the other direction, all games", "anchors": ["src/rules/game.rs:try_play", "src/rules/game.rs:check_point_by", "src/rules/game.rs:check_eye", "src/rules/game.rs:new"]}
{"id": "C70", "title": "Groups and their table as data types", "statement": "Used on their own, the liberty methods of Group are operations on a set of numbers below 368: after any sequence of add_liberty, remove_liberty, add_liberties, union_liberties and union_liberties_slice the group holds the set computed by the same set operations and its other fields are unchanged; the sequence panics exactly when an index is outside the array or, in debug builds, a present liberty is added or an absent one removed; contains_liberty, liberties, number_of_liberties, is_dead and is_atari answer for that set. Groups is a numbering: put_free_spot gives out 0, 1, 2, … and never reuses a number, an index leads to its group until it is removed and panics otherwise, iter_with_index lists the present groups by increasing number.", "quantifier": "every sequence of calls, every index, both builds", "why_tests_cant": "all sequences of calls", "anchors": ["src/pieces/group.rs:add_liberty", "src/pieces/group.rs:remove_liberty", "src/pieces/group.rs:add_liberties", "src/pieces/group.rs:union_liberties", "src/pieces/group.rs:union_liberties_slice", "src/pieces/group.rs:contains_liberty", "src/pieces/group.rs:put_free_spot", "src/pieces/group.rs:iter_with_index"]}
{"id": "C71", "title": "Indices, defaults and conversions", "statement": "get_color, get_connected_stones and get_connected_groups_idx answer the same for the index row*height+column of an on-board point as for the point, on every board whose width divides its height. Goban::default() is the empty 19 by 19 board; Game::default(), Game::new(Nineteen, CHINESE) and Game::builder().build() are the same game. Color::from panics exactly on EMPTY, Stone::try_from fails exactly on empty points and keeps colour and coordinate, !!c is c, and the colours are displayed as Black and White.", "quantifier": "every reachable board, every on-board point; all values", "why_tests_cant": "all boards and points", "anchors": ["src/pieces/goban.rs:get_color", "src/pieces/goban.rs:get_connected_stones", "src/pieces/goban.rs:get_connected_groups_idx", "src/pieces/util.rs:into_coord", "src/pieces/util.rs:into_idx", "src/pieces/stones.rs:from", "src/pieces/stones.rs:try_from", "src/rules/game_builder.rs:build"]}
{"id": "C72", "title": "Legal games that panic, under every rule", "statement": "On every board whose width w divides its height h, with both at most 19 and (w/2)^(h-1) at least 16384 (the squares from 8 x 8 to 19 x 19, and 12 x 6, 14 x 7, 16 x 8, 18 x 9, 18 x 6, 15 x 5, 16 x 4), and under every rule, including those that forbid ko, super-ko, suicide and filling eyes together, there is a game from Game::new in which every try_play is accepted, nobody resigns, and after which the game is not over and a try_play with an on-board point panics. Under the rules that do not forbid super-ko, and under those that do not forbid suicide, the same holds on every board, with both sides at most 19, whose width divides its height and which has at least 3 points (all but 1 x 1 and 2 x 1). On 1 x 1 and 2 x 1 there is such a game exactly if neither suicide nor filling own eyes is forbidden or, on 2 x 1, neither ko nor super-ko is. So super-ko does not rule out the panic of C27 on ordinary boards, as it does (C58) on boards with at most nine points.", "quantifier": "every such size, every rule (flags and komi), both build profiles", "why_tests_cant": "the game has more than 65,000 moves without a repeated position, and the claim is made for all rules and sizes", "anchors": ["src/rules/game.rs:try_play", "src/rules/game.rs:check_super_ko", "src/pieces/goban.rs:push", "src/pieces/goban.rs:create_chain", "src/rules/mod.rs:CHINESE"]}
{"id": "C73", "title": "perft counts the playable sequences", "statement": "In every game reached by accepted calls of try_play that is not paused by two passes, perft(game, d) of the benchmarks returns the number of sequences of d on-board points that try_play accepts one after the other, computed in u64 (a debug build panics and a release build wraps when the number does not fit); it does not panic otherwise, as long as fewer than 65,536 moves are made in all. From a new game on an n x n board with 2 <= n <= 19, under every rule, the values for one, two and three plies are a, a(a-1) and a(a-1)(a-2) with a = n*n; in particular the benchmark named perft_4, which calls perft with depth 3, computes 46,655,640. For depths up to 7 the number always fits its u64, on every square board. From a new game depth 8 still fits on boards up to 16 x 16; on 17 x 17, 18 x 18 and 19 x 19 it does not, under any rule: a debug build panics, a release build returns the number modulo 2^64. With k stones on a board of a points there are at least (a-5k)(a-5(k+1))... sequences (d factors).", "quantifier": "every such game on a square board, every depth, every rule, both build profiles", "why_tests_cant": "the number of sequences grows exponentially with the depth; perft is only run as a benchmark and its value is never checked", "anchors": ["benches/perft.rs:perft", "benches/perft.rs:criterion_benchmark", "src/rules/game.rs:legals", "src/rules/game.rs:try_play"]}
{"id": "C74", "title": "There is room on an open board, and the README program runs", "statement": "In every game reached by accepted calls that is not paused, a play on an empty point that has an empty neighbour is accepted by try_play under every rule, unless super-ko is forbidden and the play captures. On a square board of side at least 2 on which fewer than a fifth of the points carry stones, legals() is not empty. Consequently the example program of the README, which 35 times takes a random legal move and unwraps, never panics, whatever it chooses: 35 stones have then been put, the game is not over, and the history has the two entries that the program takes from it.", "quantifier": "every such game on a board whose width divides its height (first part) or a square board (second part), with fewer than 65,535 moves made; every sequence of random choices of the example program; both build profiles", "why_tests_cant": "the example chooses at random: 35 choices out of up to 361 points; one run says nothing about the others", "anchors": ["README.md:34-62", "src/rules/game.rs:legals", "src/rules/game.rs:check_point", "src/rules/game.rs:try_play"]}
{"id": "C75", "title": "The slow and the fast play-out policy of the benchmarks agree", "statement": "In every reachable game that is not paused, play_random (a shuffle of the legal points) and fast_play_random (a shuffle of the empty points) never panic. Both return a play that try_play accepts and that is not an own eye, or a pass if there is no such point; and every such point is returned by each of them for some shuffle. On a board that is not square this holds of the points of the first w rows. So the benchmark compares two programs with the same set of results: whole games of play_game and of fast_play_game end in the same set of games. A whole game ends, whatever the shuffles and under every rule, or panics after its moves have filled the group table. However long the game: as long as legals returns, both policies return and can make the same moves; every game in which play_game can end, fast_play_game can end in too; and without super-ko both loops have the same results, panics included.", "quantifier": "every such game on every admissible board size, with fewer than 65,535 stones put except for the last sentence, every shuffle, both build profiles", "why_tests_cant": "the set of possible results of a random function is not visible in a run; the benchmark ignores the results", "anchors": ["benches/perft.rs:play_random", "benches/perft.rs:fast_play_random", "benches/perft.rs:play_game", "benches/perft.rs:fast_play_game", "src/rules/game.rs:pseudo_legals", "src/rules/game.rs:legals", "src/rules/game.rs:check_eye"]}
{"id": "C76", "title": "A stone put on an occupied point, exactly", "statement": "push and play on an occupied point: in a release build, or in a debug build when no neighbouring point is occupied, the call returns (unless the table of groups is full), the point shows the new colour, no other point changes, no prisoner is counted, and number_of_stones reports one stone too many, of the colour that stood there before. The exception is play under a rule that allows suicide when all neighbours are stones of the opponent: then the point is empty afterwards, the new stone is counted as a prisoner, and number_of_stones still counts the old stone. In a debug build with an occupied neighbour the call panics.", "quantifier": "push: every board reachable through the API and every occupied point; play: every reachable game without dead groups, every occupied point and every rule; debug panic: every reachable game", "why_tests_cant": "all positions and all groups around the point", "anchors": ["src/rules/game.rs:play", "src/pieces/goban.rs:push", "src/pieces/goban.rs:push_wth_feedback"]}
{"id": "C77", "title": "A stone played with off-board coordinates, exactly", "statement": "play(Play(x, y)) with x·height + y = i: for i ≥ 361 it panics; if i is the index of a board point it does what it does for that point; otherwise no point of the board changes and no stone of the board is captured, and the stone either stays in a cell outside the board, where get_color shows it and number_of_stones counts it, or, under a rule that allows suicide and with only enemy stones around it, is counted as a prisoner; a debug build panics when a point next to it is occupied.", "quantifier": "every reachable game (without dead groups for the third case) on a board of height at least 2, every x and y", "why_tests_cant": "all positions and all coordinates", "anchors": ["src/rules/game.rs:play", "src/pieces/util.rs:two_to_1dim", "src/pieces/goban.rs:push_wth_feedback"]}
{"id": "C78", "title": "Resignations, exactly", "statement": "After any sequence of try_play, resume and set_komi on any game: if a resignation was accepted, the game is over and the result is a win by resignation of the player named in the last accepted resignation; if none was, a result the game started with stays, and a game without one is over exactly while two passes stand. A resignation is accepted exactly while fewer than two passes stand, and changes nothing but the result.", "quantifier": "every game, every finite sequence of calls", "why_tests_cant": "all sequences of calls", "anchors": ["src/rules/game.rs:play", "src/rules/game.rs:try_play", "src/rules/game.rs:outcome", "src/rules/game.rs:is_over"]}
{"id": "C79", "title": "New games of every size", "statement": "Game::new with sides h and w panics iff h mod 256 or w mod 256 exceeds 19; otherwise it returns a game with an empty board of h mod 256 rows and w mod 256 columns, Black to move, no prisoners, no history, the rule asked for, not over.", "quantifier": "every size, including custom sides of any magnitude, and every rule", "why_tests_cant": "all sides", "anchors": ["src/rules/game.rs:new", "src/rules/mod.rs:GobanSizes", "src/pieces/goban.rs:new"]}
{"id": "C80", "title": "check_super_ko, exactly", "statement": "check_super_ko answers true iff at least three different positions have been played from, the play captures, and the position it leads to is one from which an earlier stone was played.", "quantifier": "every game from a fresh game without dead groups by any sequence of calls, every empty on-board point", "why_tests_cant": "all game histories", "anchors": ["src/rules/game.rs:check_super_ko"]}
{"id": "C81", "title": "The previewed board, exactly", "statement": "play_for_verification returns the board after the play with the rule about suicide reversed: captured opposing groups are removed; own groups without liberties are removed iff the rule forbids suicide. Hence for an accepted play the preview equals the played board iff the play is not a suicide.", "quantifier": "every reachable game without dead groups and every empty point; the comparison: every game played with try_play, every accepted play", "why_tests_cant": "all positions", "anchors": ["src/rules/game.rs:play_for_verification"]}
{"id": "C82", "title": "Importing every record", "statement": "from_sgf, given the parsed main line: no nodes give a new 19 by 19 game with Chinese rules; an unknown rule set, another game than Go, a PL other than B or W in the root, and in a debug build a coordinate 0 in a root setup stone or in the first property of a later node, panic; otherwise the game described by the root (sides modulo 256, a coordinate 0 read as 256) is built and the moves that are the first property of a later node are played in order by the players in turn, ignoring the recorded colours and every other property of later nodes.", "quantifier": "every list of nodes, every list of tokens in them, both builds", "why_tests_cant": "all records", "anchors": ["src/rules/sgf_bridge.rs:from_sgf"]}
{"id": "C83", "title": "The board listings, exactly", "statement": "get_coords_by_color and get_stones_by_color panic in a debug build if the board has more than 255 points; otherwise they look at the first height·width mod 256 cells of the table and list all of them for EMPTY, and those showing the colour for a colour, with index i given as (i / height, i mod width). get_empty_coords lists in the same way the empty ones of the first height·width cells; to_vec gives all 361 cells; get_empty_idx the indices of the occupied cells; matrix 361 / width lines of width cells, panicking for width 0.", "quantifier": "every board reachable through the API, square or with a width dividing the height, every colour, both builds", "why_tests_cant": "all positions, sizes and colours", "anchors": ["src/pieces/goban.rs:get_coords_by_color", "src/pieces/goban.rs:get_stones_by_color", "src/pieces/goban.rs:get_empty_coords", "src/pieces/goban.rs:to_vec", "src/pieces/goban.rs:get_empty_idx", "src/pieces/goban.rs:matrix"]}
{"id": "C84", "title": "The value of a finished play-out, exactly", "statement": "evaluate_leaf returns 1 if outcome() has a winner and it is the given side, 0 if the winner is the other side, and panics if there is no winner (drawn or unfinished game).", "quantifier": "every reachable game, both sides", "why_tests_cant": "all games", "anchors": ["src/rules/dead_stones.rs:evaluate_leaf"]}
{"id": "C85", "title": "Floating and dead stones, exactly", "statement": "get_floating_stones lists in increasing order the live groups with at least three eyes whose index is smaller than the number of groups; dead_stones then returns those of which the board at the end of the search no longer shows some stone, without panic.", "quantifier": "every reachable game on a square board; every final board", "why_tests_cant": "all positions", "anchors": ["src/rules/dead_stones.rs:get_floating_stones", "src/rules/dead_stones.rs:dead_stones"]}
{"id": "C86", "title": "Scores and results for every komi", "statement": "Each score is the territory, plus the prisoners as an f32, plus the stones, plus (for White) the komi, as the flags ask, added in this order with one rounding per addition to the nearest single-precision value, ties to even; with a finite komi nothing overflows. With fewer than 2^20 prisoners, and always on boards of up to 11 x 11, Black's score is therefore the exact number of Black's points and White's is the exact sum rounded once. With an infinite or NaN komi White's score is the komi. After two passes the outcome is a draw iff the two scores differ by less than 2^-23; otherwise the larger score wins, by the difference rounded once. With a NaN komi White wins by NaN; with an infinite komi the side it favours wins by infinity.", "quantifier": "every reachable game on a square board, whatever the number of prisoners; every komi of type f32; every score flag; every visiting order of the hash sets", "why_tests_cant": "2^32 komi values times all positions; ties and values next to the draw threshold are rare", "anchors": ["src/rules/game.rs:calculate_score_by", "src/rules/game.rs:outcome", "src/rules/game.rs:set_komi"]}
{"id": "C87", "title": "Exactly when a stone cannot be recorded", "statement": "Count the stones put in the life of a board that did not join exactly one group of their colour (a lone stone, or one that connects several groups); stones removed later still count. push and play of a stone on an empty point panic iff the count is 65,535 and the stone would be counted; otherwise they return. The same holds for play_for_verification. check_point_by panics iff moreover super-ko is tested, three positions are recorded, the move captures and nothing else forbids it; legals_by iff that happens at some empty point of the rows it goes through (the first w, on a square board all); try_play iff the game is not over by passes and nothing but perhaps super-ko forbids the move. A sequence of calls, however long, returns unless it comes to such a move.", "quantifier": "every board and every game of any admissible size, with or without handicap and set-up stones, every sequence of on-board calls of any length, every rule; both build profiles", "why_tests_cant": "the limit is reached only after 65,535 counted stones, and the claim is about every call in every reachable state", "anchors": ["src/pieces/goban.rs:push", "src/pieces/goban.rs:create_chain", "src/pieces/goban.rs:update_chain_indexes_in_board", "src/pieces/group.rs:put_free_spot", "src/rules/game.rs:play", "src/rules/game.rs:try_play", "src/rules/game.rs:check_point_by"]}
{"id": "C88", "title": "Exact results of Goban::from, chain_stones at a coordinate and pseudo_legals_vec", "statement": "Goban::from(slice), n being the integer square root of the length: panics if n > 19; if the cells after the first n*n are empty it gives the n by n board showing the first n*n cells in row-major order; if one of them is a stone a debug build panics, and a release build panics iff a stone is at index 361 or more, and otherwise gives a board whose first cells (to_vec) are the whole slice. Reading back to_vec() of any board gives the 19 by 19 board whose point number i shows cell i. chain_stones((x,y)) lists, each once, the stones of the group whose index is x*height+y, and panics if there is none. pseudo_legals_vec panics in a debug build on more than 255 points and otherwise lists the empty points in row-major order.", "quantifier": "every slice of any length; every board of any admissible size; every coordinate, on or off the board; every reachable game, both build profiles", "why_tests_cant": "all slices of all lengths and all reachable boards; non-square lengths and large boards are not tested", "anchors": ["src/pieces/goban.rs:from", "src/pieces/goban.rs:to_vec", "src/pieces/goban.rs:chain_stones", "src/rules/game.rs:pseudo_legals_vec"]}
{"id": "C89", "title": "Exactly where turning the board changes the eye test", "statement": "Call a point contested for a colour if it is empty, its neighbours all show that colour, two or three of its diagonal points are off the board or of that colour, and among its empty diagonal points there is both one with an opposing neighbour and one without, of whose own diagonal points two or three are off the board or of that colour. check_eye gives the same answer on every turned or reflected board at exactly the points that are not contested. As long as no stone is tried at a contested point, playing commutes with turning the board under every rule, rules that forbid filling eyes included.", "quantifier": "every legal game on every admissible size, every symmetry of the board, every point and colour; every sequence of calls that tries no contested point", "why_tests_cant": "all positions and symmetries; the order in which the corners are visited is hidden and only shows on rare corner patterns", "anchors": ["src/rules/game.rs:check_eye", "src/rules/game.rs:try_play"]}
{"id": "C90", "title": "No internal buffer overflows, no 32-bit counter wraps", "statement": "The fixed-capacity vectors used by push, remove_chain, get_connected_groups, liberties, check_eye and get_coords_by_color are never full when something is pushed into them: no call panics for that reason. The 32-bit counters of captured stones, prisoners, passes and stones on the board never wrap or overflow. So every call gives the answer it would give with unbounded vectors and unbounded counters.", "quantifier": "the vectors: every value of the board type; the counters and rule checks: every game reachable by play, pass, resign, resume and set_komi, every move and coordinate, on the board or not, both build profiles; whole sessions of on-board calls; the same on boards of every size with stones on any cell, where sessions may use any coordinates", "why_tests_cant": "overflow of a capacity or of a 32-bit counter is exactly what no finite test run reaches", "anchors": ["src/pieces/goban.rs:push_wth_feedback", "src/pieces/goban.rs:remove_captured_stones_aux", "src/pieces/goban.rs:get_connected_groups_idx", "src/pieces/goban.rs:number_of_stones", "src/pieces/group.rs:iter_ones", "src/rules/game.rs:play", "src/rules/game.rs:check_eye"]}
{"id": "C91", "title": "Legal moves on boards that are not square, exactly", "statement": "On a board of height h and width w (w divides h), get_empty_coords and pseudo_legals list of each of the first w rows first its empty points and then all its points, occupied or not, h/w - 1 times. So legals_by(f) lists exactly the points of the first w rows whose check under f finds nothing, each h/w times, and legals exactly the points of the first w rows that try_play accepts; no point of a row below is ever listed. legals_moves and the play-out policy therefore choose among the accepted points of the first w rows that are no own eyes and pass if there is none, though there may be moves below. get_floating_stones counts the eyes of the first w rows, each h/w times. perft(game, d) of the benchmarks is (h/w)^d times the number of sequences of d points of the first w rows that try_play accepts, computed in u64. However long the game, unless it is paused legals_moves lists the points of the first w rows that are no own eyes and that try_play does not refuse (it accepts them or panics because the group table is full), or a pass if there is none and the game is not over; it panics itself only under super-ko, and then try_play panics at some point.", "quantifier": "every reachable game on every admissible board size, every rule and flag set, every shuffle, both build profiles; fewer than 65,535 stones put where the super-ko check may be made, except in the last sentence", "why_tests_cant": "all positions on all sizes", "anchors": ["src/pieces/goban.rs:get_empty_coords", "src/rules/game.rs:pseudo_legals", "src/rules/game.rs:legals_by", "src/rules/game.rs:legals", "src/rules/dead_stones.rs:legals_moves", "src/rules/dead_stones.rs:fast_play_random", "src/rules/dead_stones.rs:get_floating_stones", "benches/perft.rs:perft"]}
{"id": "C92", "title": "Territories and scores on boards that are not square, exactly", "statement": "On a board with more rows than columns (width w, which divides the height), get_territories lists for a colour: every point that is its territory and whose empty region reaches the first row, once; and moreover, for every stone of the first w rows, that stone's own point and the empty points joined to it through empty points, whenever the points so gathered are next to stones of that colour and of no other. Territory that does not reach the first row is listed only in that second way, and points may be listed several times. calculate_territories counts these listings, and calculate_score and the result of a game ended by two passes are computed from those counts exactly as on square boards, every sum being rounded to single precision. Results are exact where the scores are (komi a multiple of a half below 2^20, fewer than 2^20 prisoners).", "quantifier": "every board of every admissible size with h > w that play, handicap and set-up can reach, every order in which hash sets are iterated, every rule, komi and number of prisoners, both build profiles", "why_tests_cant": "all positions on all sizes, all iteration orders of the hash sets", "anchors": ["src/pieces/territory.rs:get_territories", "src/pieces/territory.rs:get_chains_from_stones", "src/pieces/territory.rs:get_group_from_point", "src/pieces/territory.rs:calculate_territories", "src/rules/game.rs:calculate_score_by", "src/rules/game.rs:outcome"]}
{"id": "C93", "title": "Importing the record of a game gives the game back", "statement": "Take a game built with any handicap and set-up on a square board with Japanese or Chinese rules, and make any calls of try_play, resume and set_komi on it. Write its record: a root node with board size, rules, komi, handicap, stones set up, player who begins and result, and one node for each accepted stone or pass. If the game was never resumed, the import of the record returns exactly this game (board, groups, prisoners, player to move, passes, ko point, history, rule, outcome). If it was resumed, the import returns this game with the passes counted from the end of the record, unless the record has three passes in a row; then the import panics. For boards that are not square this fails: SZ[4:2] (four columns, two rows) becomes a board of four rows and two columns.", "quantifier": "every builder without moves that builds, every sequence of calls (accepted or refused), both build profiles", "why_tests_cant": "all games of any length with all set-ups; a test imports a few records", "anchors": ["src/rules/sgf_bridge.rs:from_sgf", "src/rules/game_builder.rs:build_inner", "src/rules/game.rs:play", "src/rules/game.rs:try_play", "src/rules/game.rs:resume"]}
{"id": "C94", "title": "What the players can force: determinacy and strategy stealing", "statement": "Two players alternate with try_play, choosing among the passes and stones it accepts (nobody resigns), until is_over; get_outcome names the winner. From every game that can be reached, under every rule: a player can make sure not to lose if and only if the opponent cannot force a win. If the game starts on an empty board and no komi counts (the komi flag is off, or the komi is zero), the player who moves second cannot force a win, so the one who moves first can make sure not to lose. With komi, or with stones set up, the second player can force a win on some boards.", "quantifier": "every board size, rule, order of counting territory and both build profiles; every strategy of either player, games of any length", "why_tests_cant": "quantifies over all strategies and all games; even on a small board the tree of games cannot be searched", "anchors": ["src/rules/game.rs:try_play", "src/rules/game.rs:is_over", "src/rules/game.rs:get_outcome", "src/rules/game.rs:get_winner", "src/rules/game.rs:calculate_score_by", "src/rules/game.rs:check_point_by"]}
{"id": "C95", "title": "Rule flags are bits of a word, the history is searched by hash", "statement": "IllegalRules and ScoreRules are 32-bit words. contains of a flag, union, intersection, difference, complement and from_bits_truncate act on the flags one by one, and the last two give words without unknown flags; the words from_bits accepts correspond one for one to the sets of flags; JAPANESE and CHINESE are the words they name. The history is a hash set: whichever entries its lookup examines, in whichever order, as long as it examines all those whose hash is the one sought, it answers whether an equal board is there. try_play, legals_by (also with FILLEYE added), calculate_score_by and whole games give the same answers and the same games with words and hash lookups as with sets of flags and a linear search. A lookup that misses entries lets a position be repeated.", "quantifier": "all 2^32 words, every lookup that is complete, every reachable game, every sequence of calls", "why_tests_cant": "2^32 words and every possible layout of the hash table", "anchors": ["src/rules/mod.rs:IllegalRules", "src/rules/mod.rs:ScoreRules", "src/rules/mod.rs:JAPANESE", "src/rules/mod.rs:CHINESE", "src/rules/game.rs:check_point_by", "src/rules/game.rs:check_super_ko", "src/rules/game.rs:play", "src/rules/game.rs:calculate_score_by", "src/pieces/goban.rs:Hash", "src/rules/dead_stones.rs:legals"]}
{"id": "C96", "title": "Scores on the words of f32", "statement": "An f32 is a 32-bit word with two zeros and many NaNs. Sums of scores are rounded to the nearest value, ties to even, from the overflow bound on to infinity. The scores and the outcome computed on words stand for the exact values the other properties speak of, whatever NaN an operation returns. A komi of -0.0 gives bit for bit the scores of a komi of 0.0, and no score is ever -0.0. The side of the board that Goban::from computes in f32 from the length of a slice is the whole part of the square root, at most 255, for every length.", "quantifier": "all 2^32 words, every game, komi and set of score flags, every slice length, both build profiles", "why_tests_cant": "2^64 pairs of words and unboundedly many lengths; rounding errors show only near halfway cases", "anchors": ["src/rules/game.rs:calculate_score_by", "src/rules/game.rs:outcome", "src/rules/game.rs:set_komi", "src/pieces/goban.rs:from"]}
{"id": "C97", "title": "Questions about any pair of coordinates, exactly", "statement": "A coordinate is a pair of bytes (x, y), on the board or not. get_color looks at cell x * height + y of a table of 361: past it the call panics, at the index of a point it answers for that point, elsewhere it answers empty. get_connected_points, get_connected_stones, get_liberties and has_liberties list the points of the board beside the pair, where bytes are counted round so that 0 follows 255; in a debug build they panic when x or y is 255. get_connected_groups_idx and will_capture turn the index back into a pair and look beside that. check_suicide mixes the two: empty neighbours of the pair itself, groups beside the other. check_eye tests the pair itself, so that far from the board every empty cell passes for an eye; check_ko is false outside the board; check_super_ko outside the board is, on a cell that is a point of the board, the question about that point; on any other cell a release build answers yes only if at least three positions have been played from, an opposing group in atari stands beside the place where the pair is taken to be, the rule forbids suicide and all points beside that place are the opponent's, and the present position was played from before, while a debug build panics whenever the first two hold and answers no otherwise. check_point_by is the first of these that applies.", "quantifier": "every board and game reachable by API calls, all 65536 pairs of bytes, both colours, every set of rules; super-ko on boards of at least two rows, both build profiles", "why_tests_cant": "the answers depend on the whole position; nobody asks about points outside the board, and the wrap at 255 appears only in release builds", "anchors": ["src/pieces/util.rs:neighbor_coords", "src/pieces/util.rs:corner_points", "src/pieces/goban.rs:get_connected_points", "src/pieces/goban.rs:get_connected_groups_idx", "src/pieces/goban.rs:get_liberties", "src/rules/game.rs:check_eye", "src/rules/game.rs:check_suicide", "src/rules/game.rs:will_capture", "src/rules/game.rs:check_point_by", "src/rules/game.rs:check_super_ko", "src/rules/game.rs:play_for_verification"]}
{"id": "C98", "title": "Boards of every size, stones on any cell", "statement": "Whatever the two sides of the board are (at most 19 each; the width need not divide the height) and whatever pairs are played, as long as the cell x * height + y is empty: to_vec lists 361 cells, get_color shows cell x * height + y and panics past the table, number_of_stones counts the cells, the groups share out the occupied cells (each live group is not empty, its num_stones and chain_stones are those cells, every occupied cell is in exactly one group), and boards with equal cells have equal hashes. push changes one cell; remove_chain empties the cells of the group. play puts the stone on its cell and empties only whole groups: of the opponent, or, where suicide is allowed, the own one. The stones put by a player are those on the cells plus those among the prisoners. try_play returns or panics and leaves the game unchanged when it refuses. In a release build none of these calls panics on a cell of the table before 65535 stones unless a side is 0, and legals lists pairs that check_point accepts; past the table play and try_play panic; with a side 0 no stone is ever accepted. A debug build may panic, and otherwise does the same. No call hangs. At most 47447701 stones are ever put on a board, whatever the calls; one more panics. Games made by the builder or with put_handicap, from points whose cells are distinct and not occupied, are included.", "quantifier": "every size, every start (new game, builder, put_handicap), every sequence of play, push, remove_chain, pass, resign, resume and set_komi with any coordinates whose cell is empty, every rule, both build profiles", "why_tests_cant": "the tests use square boards and points of the board; the claim is about all sizes and all sequences", "anchors": ["src/pieces/util.rs:two_to_1dim", "src/pieces/util.rs:one_to_2dim", "src/pieces/goban.rs:push_wth_feedback", "src/pieces/goban.rs:remove_chain", "src/pieces/goban.rs:to_vec", "src/rules/game.rs:play", "src/rules/game.rs:try_play", "src/rules/game.rs:legals_by"]}
{"id": "C99", "title": "The game as the tree search sees it", "statement": "is_final holds exactly of the games with a recorded result or two passes in a row. Below a game try_play can reach, every game the search meets is again such a game; unless it is final, legals_moves offers at least one move, and do_move makes each offered move without panic and with the game try_play would give, until 65535 moves; after that too every game met is such a game, at least one move is offered unless legals_moves panics (under super-ko only), and for each offered move do_move and try_play give the same game or panic together. The last does happen. player_turn alternates along the descent. From a game without result whose last move was not a pass, the descent has ended exactly when its last two moves are passes; it never resigns. get_winner panics on a game that is not final, gives the recorded winner, panics on a recorded draw, and after two passes gives the side with the larger score and panics exactly when they differ by less than 2^-23 (with an infinite komi that counts it gives the side that favours, with one that is not a number White). evaluate_leaf is 1 for one side exactly if it is 0 for the other. legals_moves may list moves of a final game.", "quantifier": "every reachable game, every descent by offered moves of any length, every rule, boards whose width divides the height, both build profiles", "why_tests_cant": "the search makes random descents; the claim is about all of them", "anchors": ["src/rules/dead_stones.rs:legals_moves", "src/rules/dead_stones.rs:player_turn", "src/rules/dead_stones.rs:is_final", "src/rules/dead_stones.rs:do_move", "src/rules/dead_stones.rs:get_winner", "src/rules/dead_stones.rs:evaluate_leaf"]}
{"id": "C100", "title": "Territories, scores and results on boards of every size", "statement": "Whatever the two sides are (at most 19 each) and whatever has been played on empty cells: get_empty_coords lists the pairs (i / height, i mod width) of the empty cells i < height * width, in this order; get_territories and calculate_territories return in both builds, and a pair is listed for a colour once for every start from which it is gathered together with pairs that are next to stones of this colour only, where the starts are the listed pairs that were not gathered before (a start may be occupied or outside the board), and what is gathered from a start is itself and the empty points of the board joined to an empty neighbour of it. calculate_score and outcome return in both builds for every komi; there is a result exactly if one is recorded or there were two passes in a row, and a recorded one is returned. The scores are the number of listed pairs, the prisoners, the stones on the 361 cells and the komi as the flags ask, each sum rounded to single precision, and the result compares them as on square boards. With a komi that is a multiple of a half below 2^20 and fewer than 2^20 prisoners nothing is rounded: the result is a draw exactly if the scores are equal, otherwise a win of the larger by the exact difference.", "quantifier": "every size, every start (new game, builder, put_handicap), every sequence of play, pass, resign, resume and set_komi with any coordinates whose cell is empty, every rule, every komi, every iteration order of the sets, both build profiles", "why_tests_cant": "the tests score square boards only; on the other sizes the starts depend on every empty cell", "anchors": ["src/pieces/goban.rs:get_empty_coords", "src/pieces/goban.rs:get_territories", "src/pieces/goban.rs:calculate_territories", "src/rules/game.rs:calculate_score", "src/rules/game.rs:outcome"]}
{"id": "C101", "title": "chains() lists every group once", "statement": "chains() lists, each once, exactly the groups on the board (maximal sets of stones of one colour connected along the lines), groups without liberties included; so it lists as many as the position has. Each listed group tells the index of its first stone (row by row) as origin, its colour, the number of its stones, and in increasing order its liberties; is_dead holds exactly if there is none, is_atari exactly if there is one.", "quantifier": "every board that new, push on empty points and remove_chain can produce, square or with the width dividing the height, both build profiles", "why_tests_cant": "the table of groups has holes after captures and merges; the tests never compare the listing with the position", "anchors": ["src/pieces/goban.rs:chains", "src/pieces/group.rs:iter", "src/pieces/group.rs:is_dead", "src/pieces/group.rs:is_atari", "src/pieces/group.rs:number_of_liberties"]}
{"id": "C102", "title": "Games from every start, asked or not", "statement": "From every start, boards set up with groups without liberties included, and for every sequence of try_play, resume, set_komi and play (play on empty points, passing at most twice in a row): the answers, the stones, the player to move, the passes, the prisoners, the recorded result and is_over are those of a game in which a stone removes the opposing groups next to it that have no liberty left and, if suicide is allowed, its own group, and nothing else changes. will_capture is true iff such a move removes an opposing stone; check_suicide, for either colour, iff after the removals the stone's group has no liberty; check_ko iff the last stone removed exactly one stone of the player to move, at this point, and every neighbouring group whose only liberty it is is a single stone; check_super_ko iff three different positions have been played from, the play captures, and check_ko says true or the position it leads to has been played from; check_point follows these tests in the order suicide, ko, eye, super-ko. try_play never leaves a group without liberties that did not have none before. Without dead groups all this is the rule book; with them the book's move, suicide and ko differ from the crate's.", "quantifier": "every start with the width dividing the height, every rule, every such sequence, every empty on-board point, both build profiles", "why_tests_cant": "all starts and all sequences; the tests set up no board with dead groups", "anchors": ["src/rules/game.rs:try_play", "src/rules/game.rs:play", "src/rules/game.rs:check_point", "src/rules/game.rs:check_ko", "src/rules/game.rs:check_super_ko", "src/rules/game.rs:check_suicide", "src/rules/game.rs:will_capture", "src/rules/game.rs:play_for_verification", "src/rules/game_builder.rs:build"]}
{"id": "C103", "title": "Listings, item by item", "statement": "The functions that return an iterator (chains, get_stones, get_empty_idx, get_empty_coords, get_connected_points, get_connected_stones, get_liberties, get_coords_by_color, get_stones_by_color, pseudo_legals, legals_by, legals) give, call of next by call of next, the items of the list that collecting gives, in order, and None ever after; where collecting panics, the items before come out and the panic is met only when its item is drawn, so a caller who stops earlier does not meet it. has_liberties is the first next of get_liberties. legals().next() is the first point, row by row, that try_play accepts, and None iff it accepts none.", "quantifier": "every value of the board and game types, damaged ones included, every coordinate, colour, rule flag and number of calls, both build profiles; the last sentence: every reachable game on a square board, not paused, below the limit on stones", "why_tests_cant": "tests collect; partial consumption has unboundedly many cut points, and the difference shows on damaged boards only", "anchors": ["src/pieces/goban.rs:get_stones", "src/pieces/goban.rs:get_empty_coords", "src/pieces/goban.rs:get_liberties", "src/pieces/goban.rs:has_liberties", "src/pieces/goban.rs:get_connected_points", "src/rules/game.rs:legals_by"]}
{"id": "C104", "title": "is_over looks at passes and resignations only", "statement": "is_over() is true exactly when the last two moves are passes or some move is a resignation. Contrary to its documentation (two passes, or no more legals moves, Resign), a player without a legal move does not end the game: every point is refused, a pass is accepted, is_over() stays false and outcome() is None, even when neither player has a legal move.", "quantifier": "every list of moves played from a game without pass and result, both builds, every board; games of any length", "why_tests_cant": "Positions without a legal move are rare in random games, and a test that ends a game by passes or resignation never sees the third case.", "anchors": ["src/rules/game.rs:is_over", "src/rules/game.rs:legals"]}
{"id": "C105", "title": "pretty_string draws the first point top left", "statement": "pretty_string() draws the point (0, 0) in the top left corner, as the documentation of play says. Contrary to its own documentation ((0,0) left bottom), it shows the position with (0, 0) in the bottom left corner exactly when the position equals its reflection top to bottom.", "quantifier": "every board with sides at most 19 whose width divides its height", "why_tests_cant": "A test with a position that is symmetric top to bottom, in particular the empty board, cannot tell; the claim is about every position.", "anchors": ["src/pieces/goban.rs:pretty_string", "src/rules/game.rs:play"]}
{"id": "C106", "title": "Who begins in a built game", "statement": "In a game built without moves the player to move is the one given last to turn(); if turn() was not called, White iff the number given last to handicap() is not zero, or, if handicap() was not called, the points given last to put_handicap() are not none; else Black. Contrary to its documentation, put_handicap does not override an explicit turn() or handicap(0), in whatever order they are called.", "quantifier": "every sequence of setter calls without moves for which build returns, every size, every points", "why_tests_cant": "The order and number of setter calls is unbounded; a test fixes one sequence.", "anchors": ["src/rules/game_builder.rs:put_handicap", "src/rules/game_builder.rs:build_inner"]}
{"id": "C107", "title": "The sizes on which the crate plays Go", "statement": "Take a board with h rows and w columns, both between 1 and 19. From the empty board, every sequence of calls with points of the board is answered as in Go and leads to the stones, turn, passes and prisoners of Go, if and only if w divides h and the rule forbids suicide or does not forbid ko, or the board is 2x1, or the board is 1x1 and the rule forbids filling eyes. On a size where w does not divide h at most four accepted or refused calls are enough, in a release build and under every rule, to get an answer or a stone on the board that Go does not give. In particular it fails on the sizes 4x5 and 4x9 that the README names. Under a rule that allows suicide and forbids ko it fails on every size but those two, by at most four calls: the crate answers Ko to a suicidal play at the point where one stone has just been taken, which repeats nothing, and on the 1x1 board it accepts the suicide that repeats the position.", "quantifier": "every size from 1 x 1 to 19 x 19, every rule, every sequence of fewer than 65,536 calls, both build profiles", "why_tests_cant": "the good sizes need all games; the tests of the crate play on square boards only", "anchors": ["README.md:88", "src/pieces/util.rs:two_to_1dim", "src/pieces/util.rs:one_to_2dim", "src/rules/game.rs:try_play", "src/pieces/goban.rs:push_wth_feedback"]}
{"id": "C108", "title": "What play looks at in the rule", "statement": "Komi and scoring flags have no influence on play: two games that differ only in them answer every sequence of try_play, resume and set_komi calls alike (the values given to set_komi may differ too), panic at the same call if at all, list the same legal moves, and again differ only in them afterwards. Of the other flags, play looks only at whether suicide is forbidden, and check_point_by(f) at f and at that. A sequence of calls that is accepted throughout is also accepted throughout, with the same effect, under a rule that forbids less but agrees on suicide.", "quantifier": "every game value whatsoever (any size, any contents), every rule, every call sequence, both build profiles", "why_tests_cant": "all pairs of games and rules, all sequences", "anchors": ["src/rules/game.rs:play", "src/rules/game.rs:try_play", "src/rules/game.rs:check_point_by", "src/rules/game.rs:legals_by", "src/rules/game.rs:set_komi"]}
{"id": "C109", "title": "Machine words change nothing", "statement": "Take the game with every field as the code has it: u32 counters whose addition panics or wraps, vectors of fixed capacity whose push panics when they are full, rule flags as words of bits, a history that is looked up by hash, komi and scores as f32 words (both zeros, every NaN). Every call sequence gives the same answers, the same panics and the same state as with unbounded counters, unbounded vectors, Boolean flags, a history compared entry by entry and f32 values; so do check_point_by, legals_by, play, put_handicap, calculate_score_by and outcome. In particular the game in words plays Go on every size where the width divides the height.", "quantifier": "every game that Game::new, play on empty points, try_play, pass, resign, resume, set_komi, put_handicap and the builder can produce, every size, every coordinates, every rule, every call sequence, any hash table that looks at all entries with the hash sought, any choice of NaN by the additions, both build profiles", "why_tests_cant": "counters near 2^32, full vectors and hash collisions do not come up in tests; the claim is about all of them at once", "anchors": ["src/rules/game.rs:18-29", "src/rules/game.rs:play", "src/rules/game.rs:try_play", "src/rules/game.rs:check_point_by", "src/rules/game.rs:calculate_score_by", "src/rules/game.rs:outcome", "src/rules/mod.rs:91-122"]}
{"id": "C110", "title": "The stones of a group one of whose stones has been overwritten", "statement": "Release builds. push (or play, unless it is a suicide that the rule allows) puts a stone on an occupied point whose stone belongs to a group; chain_stones for that group listed some stones, then this one, then others. If the new stone has the other colour and some stone was listed before: every call of next() on the iterator of the group's old slot now returns a stone, so chain_stones never ends and the removal of that group does not return. If the new stone has the other colour and the old one was listed first: the slot lists exactly the points of the new stone's group, each once, in the old colour, and none of the old stones. If the new stone has the same colour: the slot lists the stones up to that point and no longer those after it, though get_color is unchanged everywhere. So play itself can fail to return: on a 2x2 board, a move on an empty point after one move on an occupied point.", "quantifier": "every board reachable through the API, every group, every stone of it, both colours, every number of calls of next(); play: every reachable game without dead groups", "why_tests_cant": "the circles of all groups of all boards; a test cannot observe that a call never returns", "anchors": ["src/pieces/goban.rs:push_wth_feedback", "src/pieces/goban.rs:chain_stones", "src/pieces/goban.rs:remove_chain", "src/pieces/group.rs:CircularGroupIter", "src/rules/game.rs:play"]}
{"id": "C111", "title": "The sizes on which zobrist_hash tells positions apart", "statement": "On a supported size (width divides height) two boards with the same zobrist_hash always show the same stones if and only if the board has at most 32 points and is not 8x4. On every other supported size, so on 6x6, 9x9, 13x13 and 19x19, under every rule, two games from the empty board with only accepted moves, no prisoners and the same player to move have boards with the same zobrist_hash that show different stones; == still says that they differ. On every supported size boards that differ in just one or two points have different hashes.", "quantifier": "all supported sizes, all pairs of boards reachable through the API (there are up to 3^361 positions), every rule, both players, both build profiles", "why_tests_cant": "equality of hashes over all pairs of positions; a collision is never met by random testing", "anchors": ["src/pieces/goban.rs:zobrist_hash", "src/pieces/zobrist.rs:index_zobrist", "src/pieces/zobrist.rs:ZOBRIST"]}
{"id": "C112", "title": "What a stone does to the score", "statement": "On square boards, for a stone played on an empty point that stays on the board and captures t stones. By area (stones and territory): on a point of own territory it captures nothing and leaves both scores as they are; anywhere else its player's score rises by at least t + 1; the opponent's falls by at least t. By territory and prisoners: on a point of own territory it costs its player exactly one point and the opponent nothing; anywhere else its player's score rises by at least 2t; the opponent's never rises. A suicide that removes t own stones: by area its player loses at least t - 1 points and the opponent nothing, by territory its player gains nothing and the opponent gains at least t. So by area no stone but a suicide ever costs a point, and by territory none but a suicide or one put into own territory.", "quantifier": "every reachable game on every square board, both players, every empty point, every rule, every number of stones captured, both build profiles, every order of iterating hash sets; komi a multiple of a half below 2^20 and fewer than 2^20 prisoners where they count", "why_tests_cant": "an inequality between the scores of two positions, over every position and every move; regions of any shape may be divided or joined by the stone", "anchors": ["src/rules/game.rs:play", "src/rules/game.rs:calculate_score_by", "src/pieces/goban.rs:get_territories", "src/pieces/goban.rs:calculate_territories"]}
{"id": "C113", "title": "Play-outs are unbiased", "statement": "Suppose the shuffle makes every order of its list equally likely, independently in every round. Then in every round of a play-out, with c plays that try_play accepts and that fill no own eye, each of them is made with chance exactly 1/c (and a pass if there is none), although the shuffled list also contains refused points and eyes. The slow policy of the benchmarks has the same chances, and whole play-outs of both have the same distribution of final games. On boards with more rows than columns this holds with the plays of the first w rows. Without komi play-outs are fair: from a new game with any stones set up, Black wins with the same chance as White does from the game with all colours and the turn exchanged.", "quantifier": "every reachable game that is not paused, every rule, every supported board size, every function of the result (so every event), every number of rounds while fewer than 65,535 stones have been put, both build profiles", "why_tests_cant": "an exact statement about a probability distribution over up to 361! orders per round; sampling gives only estimates", "anchors": ["src/rules/dead_stones.rs:fast_play_random", "src/rules/dead_stones.rs:playout", "benches/perft.rs:fast_play_random", "benches/perft.rs:play_random", "benches/perft.rs:play_game"]}
{"id": "C114", "title": "Ko forbids one point, for one turn", "statement": "In any one position check_ko says true for at most one empty point (for the side to move), and without super-ko try_play answers Ko for at most one point. The ban comes from the stone just played: the position is the one right after an accepted play that captured exactly one stone, and the forbidden point is where that stone stood. It lasts one turn: whatever play or pass is accepted next, the point is not forbidden by ko afterwards. And unless it is suicide, playing there with the unchecked play takes exactly the stone just put: that point is empty afterwards, every other stone of its colour stays, and the player has one prisoner more.", "quantifier": "every game reached from a new game through try_play, resume and set_komi with any answers in between, every rule, every supported board size, every point and every next move, both build profiles", "why_tests_cant": "the one-turn claim ranges over every continuation of every game with a ko; tests follow a few ko fights", "anchors": ["src/rules/game.rs:check_ko", "src/rules/game.rs:try_play", "src/rules/game.rs:play", "src/rules/game.rs:pass"]}
{"id": "C115", "title": "It takes as many stones as a group has liberties to take it", "statement": "Follow a group (its stones and its liberties, as the board lists them) through any continuation of the game. While some liberty of it has not been played on, every stone of it stands, all in one group that still has all the liberties not played on. So while fewer stones have been put, by both sides together, than number_of_liberties said, the group stands, and each stone put has cost it at most one liberty. Conversely, if a stone of it is gone, every liberty it had has been played on. For one stone: play removes stones only from groups for which is_atari is true, and only when it is put on their last liberty.", "quantifier": "every reachable game under every rule, every group on the board, every continuation by plays on empty points (checked or not), passes, resignations, resume and set_komi, every supported board size, both build profiles", "why_tests_cant": "capturing races range over all continuations of all positions; tests try a handful of captures right after the stones are put", "anchors": ["src/rules/game.rs:play", "src/rules/game.rs:try_play", "src/pieces/group.rs:number_of_liberties", "src/pieces/group.rs:is_atari", "src/pieces/group.rs:liberties", "src/pieces/goban.rs:chain_stones"]}
{"id": "C116", "title": "Without super-ko the past does not matter: transpositions", "statement": "Two games are said to show the same if board (by ==), turn, passes, prisoners, outcome, forbidden moves and ko point are the same; the positions they went through may differ. If super-ko is not forbidden, games that show the same answer every sequence of try_play, resume and set_komi in the same way and still show the same afterwards, and have the same legal moves under every set of forbidden moves without super-ko. Two ways to put the same stones from one game without a capture, with any accepted passes in between, lead to games that show the same, with the same hash, if the same player is to move after the same number of passes. With super-ko the first claim is false: a game on a 4 x 1 board under the Chinese rule has two transpositions after which the same two calls are answered differently.", "quantifier": "every two games reached through try_play, resume and set_komi with any answers in between, on every supported board size, each in either build profile; every sequence of calls, of any length; every two sequences of accepted stones and passes", "why_tests_cant": "the claim compares every pair of histories leading to one position, over all continuations", "anchors": ["src/rules/game.rs:try_play", "src/rules/game.rs:play", "src/rules/game.rs:legals_by", "src/rules/game.rs:check_ko", "src/rules/game.rs:check_super_ko", "src/pieces/goban.rs:eq"]}
{"id": "C117", "title": "Komi only ever helps White, and only one komi makes a finished game a draw", "statement": "With a larger komi (set_komi) calculate_score_by gives Black the same score and White no smaller one; if komi does not count, the same one. After two passes: if White wins with some komi, White wins with every larger one by at least as much; if Black wins with some komi, Black wins with every smaller one by at least as much. If komi counts, the winner and the margin are those of Black's lead without komi minus the komi, for every multiple of half a point below 2^20 (and fewer than 2^20 prisoners, if these count): the game is a draw only with the komi equal to that lead, and never when the komi is a whole number and a half.", "quantifier": "every game on boards of any size on which a game can be made, under every rule; every two komi values that are not NaN (infinite ones included) for the order, every multiple of half a point for the exact claim; every order of counting territory, both build profiles", "why_tests_cant": "monotonicity compares every pair of komi over every position, through rounded float additions", "anchors": ["src/rules/game.rs:set_komi", "src/rules/game.rs:calculate_score", "src/rules/game.rs:calculate_score_by", "src/rules/game.rs:outcome"]}
{"id": "C118", "title": "What the players can force under different komi: the fair komi", "statement": "Play as in C94. What Black can force, or make sure of, Black can with every smaller komi; what White can, White can with every larger one. If komi counts and prisoners do not (area counting), there is a whole number of points V, the fair komi: with komi V both players can make sure not to lose, with every smaller multiple of half a point Black can force a win, with every larger one White can. No other multiple of half a point is fair. On an empty board V is not negative if Black begins, and not positive if White does.", "quantifier": "every game that can be reached and has not been resigned, under every rule (area rules for the fair komi), on every supported board size; all komi that are not NaN for the order, multiples of half a point below 2^20 for the fair komi; every strategy of either player, every order of counting territory, both build profiles", "why_tests_cant": "quantifies over strategies for whole games of any length and over all komi", "anchors": ["src/rules/game.rs:try_play", "src/rules/game.rs:set_komi", "src/rules/game.rs:is_over", "src/rules/game.rs:outcome", "src/rules/game.rs:calculate_score_by", "src/rules/mod.rs:get_winner"]}
{"id": "C119", "title": "A living majority wins", "statement": "Let a player's stones live by Benson's criterion (C68), for example a group with two eyes, and call the points held these stones and those of their regions that are a single point next to one of them. Whatever is played, as long as the player puts no stone into those regions, their area score is at least the number of points held and the two scores together at most n*n. So, played as in C94 under a rule that counts stones and not prisoners: if twice the points held minus n*n exceeds the komi (for White: exceeds minus the komi), the player can force a win, and if it is equal, they can make sure not to lose; passing is enough. A group of k stones with two eyes holds k + 2 points.", "quantifier": "every game reached by legal calls on a square board that has not been resigned, either player to move, every set of stones that live, every rule that counts area with or without komi (a multiple of half a point below 2^20), everything the opponent may play, every order of counting territory, both build profiles", "why_tests_cant": "ranges over all continuations of a game by the opponent, of any length, and over all positions with living stones", "anchors": ["src/rules/game.rs:try_play", "src/rules/game.rs:play", "src/rules/game.rs:is_over", "src/rules/game.rs:outcome", "src/rules/game.rs:calculate_score_by", "src/pieces/territory.rs:calculate_territories"]}
{"id": "C120", "title": "What one stone does to the groups and their liberties", "statement": "Let a stone be played on an empty point, whatever it takes, its own group included. Every group of the position after it that does not contain the point played on has the same stones and the same colour as one group of the position before; its liberties are that group's liberties except the point played on, together with the points next to it that have become empty by the play. A group that is next to neither the point played on nor a point that has become empty has the same liberties, so the same number and the same answer to is_atari. If the stone played stands, its group has the player's colour and consists of that stone and exactly the stones of the player's groups next to it; its liberties are the empty points next to the stone and the liberties of those groups, except the point played on, together with the points next to it that have become empty.", "quantifier": "every reached game, every rule, every empty point of the board, every group of the position after the play, both build profiles", "why_tests_cant": "ranges over all positions and all groups of them, and compares the incrementally kept liberties of every group with those before the play", "anchors": ["src/rules/game.rs:play", "src/pieces/goban.rs:push", "src/pieces/group.rs:liberties", "src/pieces/group.rs:number_of_liberties", "src/pieces/group.rs:is_atari"]}
{"id": "C121", "title": "A position that comes back", "statement": "Let a position come back, whatever was played, passed, resigned, resumed or set as komi in between, b black and w white stones having been put. Then exactly b black and w white stones have been taken: prisoners() has grown by (w, b). So a position never comes back without a capture, and by area nothing has changed, while by territory each side's score has grown by the stones the other has put. If both have put equally many, the lead is the same under every set of score flags, and a game ended by two passes before and after ends in the same result. Under a rule that forbids ko and suicide, with stones accepted one directly after the other, a position comes back after three stones at the earliest, each side having put at least one; with the same player to move after four at the earliest, and then both have put equally many. Three is possible.", "quantifier": "every reached game, every sequence of calls after it, every number of stones, every set of score flags (scores: square boards, komi a multiple of 1/2 below 2^20, prisoners below 2^20 where they count), both build profiles", "why_tests_cant": "ranges over all cycles of all lengths in the graph of positions", "anchors": ["src/rules/game.rs:play", "src/rules/game.rs:try_play", "src/rules/game.rs:prisoners", "src/rules/game.rs:calculate_score_by", "src/rules/game.rs:outcome", "src/rules/game.rs:check_ko"]}
{"id": "C122", "title": "How many liberties, groups and stones fit on a board", "statement": "A group of k stones has at most 2k + 2 liberties (number_of_liberties), and the liberties of all groups together are at most four times the empty points. In every game that began without a group without liberties and was continued through try_play, some point is empty, and chains() lists at most four times as many groups as there are empty points. So once accepted stones are as many as the empty points there were, or more, stones have been taken: prisoners() has grown by more than the excess. The first bound is met by straight rows of stones.", "quantifier": "every board that new, push on empty points and remove_chain can produce (first two claims), every game reached through try_play, resume and set_komi and every sequence of accepted stones and passes after it, every board size whose width divides its height, both build profiles", "why_tests_cant": "ranges over all shapes of groups, all positions and all games", "anchors": ["src/pieces/group.rs:number_of_liberties", "src/pieces/goban.rs:chains", "src/pieces/goban.rs:number_of_stones", "src/rules/game.rs:try_play", "src/rules/game.rs:prisoners"]}
{"id": "C123", "title": "Which stones can be taken from a player who only passes", "statement": "Under rules that forbid suicide and do not forbid filling eyes: a stone is among stones that live by Benson's criterion (each of their groups borders two separate regions that give it a liberty wherever they are empty, and the regions are bordered by such stones only) exactly if get_color still shows it after any calls in which its player puts no stone. For a stone that does not live there is a sequence of calls, all accepted by try_play, in which its player passes and the opponent puts a stone in turn, and at the end the stone is gone; it takes no more stones than the board has points. One such sequence removes all stones that do not live and leaves exactly those that do.", "quantifier": "every game reached through try_play, resume and set_komi from a board without dead groups and with room for the attack in the group table (calls made + two per point below 65535), every stone of either player, every rule that forbids suicide and not fill-eye, with super-ko not forbidden or, for the attack on a stone and for the equivalence, with super-ko and an opponent who has lost no stone (more generally: no recorded position has all the stones of the opponent now on the board and more), every board size whose width divides its height, both build profiles", "why_tests_cant": "ranges over all positions and over all continuations of a game, and the converse asks for a strategy that works in every position", "anchors": ["src/rules/game.rs:try_play", "src/rules/game.rs:check_suicide", "src/pieces/goban.rs:get_color"]}
{"id": "C124", "title": "Which stones can be taken from a player who only passes, where suicide is allowed", "statement": "Under rules that forbid neither suicide nor fill-eye nor super-ko: a stone is among stones that live by Benson's criterion for such rules (each of their groups borders two separate regions all of whose points, empty or not, are next to the group, and the regions are bordered by such stones only) exactly if get_color still shows it after any calls in which its player puts no stone. For a stone that does not live there is a sequence of calls, all accepted by try_play, in which its player passes and the opponent puts a stone in turn, suicides included, and at the end the stone is gone. One such sequence removes all stones that do not live and leaves exactly those that do. There are positions where a stone lives where suicide is forbidden and can be taken where it is allowed.", "quantifier": "every game reached through try_play, resume and set_komi from a board without dead groups and with room for the attack in the group table (calls made + 2 · points · stones of the player below 65535, which holds for all positions of a game of moderate length up to 13 × 13), every stone of either player, every rule without the suicide, fill-eye and super-ko flags, every board size whose width divides its height, both build profiles", "why_tests_cant": "ranges over all positions and over all continuations of a game, and the converse asks for a strategy that works in every position", "anchors": ["src/rules/game.rs:try_play", "src/rules/game.rs:play", "src/pieces/goban.rs:get_color"]}
{"id": "C125", "title": "is_atari says exactly which groups the next stone can take", "statement": "Let a game not be paused and let is_atari be true for a group of the player who is not to move. Then the group has one liberty, and try_play there returns Ok or Err(Ko), never another error (with 65,535 stones put it may panic, C27). If it returns Ok, every stone of the group is gone. It returns Err(Ko) only if ko is forbidden, check_ko is true there and the group is a single stone, or if super-ko is forbidden and check_super_ko is true there. So, where super-ko is not forbidden, and ko is not forbidden or the group has at least two stones, is_atari is true exactly if some accepted play takes the group. For a group of the player to move, when nobody has just passed and super-ko is not forbidden: is_atari is true exactly if, after a pass, some accepted play of the opponent takes it.", "quantifier": "every game reached through try_play, resume and set_komi from a board without dead groups (of any length for the first four sentences, below the limit of the group table for the others), every group on the board, every rule, every supported board size, both build profiles", "why_tests_cant": "ranges over all positions, groups and rules; that no other refusal is possible concerns every shape around the last liberty", "anchors": ["src/pieces/group.rs:is_atari", "src/rules/game.rs:try_play", "src/rules/game.rs:check_ko"]}
{"id": "C126", "title": "Two groups with two common liberties can be connected whatever the opponent does", "statement": "Let two groups of the player who is not to move have two common liberties, and one of them a third liberty. After any call that the opponent makes and that hands over the move (a stone anywhere, a suicide, a pass), if the game is not paused, at least one of the two points is empty. try_play on an empty one of them returns Ok, or Err(FillEye) if that is forbidden, or Err(Ko) if super-ko is forbidden and check_super_ko is true; or panics if 65,535 stones have been put (C27); it is never suicide and never forbidden by ko. When it returns Ok all stones of both groups are in one group.", "quantifier": "every game reached through try_play, resume and set_komi from a board without dead groups (of any length), every two groups of a colour and three points as described, every accepted call, every rule, every supported board size, both build profiles", "why_tests_cant": "ranges over all positions, all pairs of groups and all replies", "anchors": ["src/rules/game.rs:try_play", "src/rules/game.rs:play", "src/pieces/goban.rs:push_wth_feedback"]}
{"id": "C127", "title": "The fourth stone: which games of four stones are accepted, and how many there are", "statement": "From an empty board with at least three lines each way, four stones are accepted by try_play one after the other exactly if the first three points are different; the fourth is neither the first nor the third, and is the second only if that is a corner whose two neighbours are the first and the third (the stone there has been taken); and, if the fourth point is such a corner between the first and the third, the rule does not forbid suicide, and does not forbid ko either if the second stone stood there. Forbidding super-ko or filling eyes makes no difference. From a new game on an n x n board with 3 <= n <= 19 and a = n*n, perft(game, 4) is a(a-1)(a-2)(a-3) - 8(a-3) if the rule forbids suicide, a(a-1)(a-2)(a-3) if it allows suicide and forbids ko, and 8 more if it forbids neither; for 19 x 19 under CHINESE it is 16,702,716,256.", "quantifier": "every four points, every rule, every supported board size of at least 3 x 3, both build profiles; the values of perft for square boards", "why_tests_cant": "on 19 x 19 there are more than sixteen thousand million sequences for each rule", "anchors": ["benches/perft.rs:perft", "src/rules/game.rs:try_play", "src/rules/game.rs:check_suicide", "src/rules/game.rs:check_ko"]}
{"id": "C128", "title": "Self-atari and seki", "statement": "In a game reached by accepted calls of try_play: if a group of the player to move has exactly two liberties, a stone on one of them takes nothing, has no other empty neighbour than the second liberty and joins no other group, and the stone is accepted, then it and the group are one group in atari whose one liberty is the second point, and the opponent's try_play there is accepted and takes all these stones, unless super-ko forbids it or, with 65,535 stones put, the group table has no room (C27). If two opposing groups have the same two liberties, every stone next to these points belongs to the two groups and no further point next to them is empty (a seki), then a player who puts an accepted stone on one of the points loses the group to the opponent's stone on the other, unless super-ko forbids that; and both groups stand, however the game goes on, until stones have been put on both points.", "quantifier": "every such game of any length on every supported board size, every such groups, every rule, both build profiles, every continuation", "why_tests_cant": "the number of positions with such groups and of continuations is unbounded", "anchors": ["src/rules/game.rs:try_play", "src/pieces/goban.rs:push_wth_feedback", "src/pieces/group.rs:is_atari", "src/pieces/group.rs:liberties"]}
{"id": "C129", "title": "The positions in which play-outs and simulations stop", "statement": "A playout, and the simulation of dead_stones_wth_simulations whatever move of legals_moves its tree search returns, started on a square board in a game with no pending pass, ends by two consecutive passes, and neither player then had anything to play but own eyes: try_play refused every other point. In the game so ended every empty point has only stones of one colour around it, except points at which try_play answered Ko to one of the two players who passed; without super-ko it is the first of them who was answered, and at one point at most. So without super-ko counting stones and territory gives the two players together n*n or n*n-1 points.", "quantifier": "every game reached by accepted calls of try_play, every shuffle, every choice of the search, every rule, both build profiles, games of any length that end", "why_tests_cant": "the number of play-outs is unbounded, and the exceptional ko point is rare", "anchors": ["src/rules/dead_stones.rs:playout", "src/rules/dead_stones.rs:fast_play_random", "src/rules/dead_stones.rs:dead_stones_wth_simulations", "src/rules/game.rs:legals_moves", "src/rules/game.rs:check_eye"]}
{"id": "C130", "title": "Without super-ko a cycle of play can be repeated until the group table is full", "statement": "Two games are said to play the same if board (by ==), turn, passes, forbidden moves and ko point are the same; past positions, prisoners and a recorded result may differ. If super-ko is not forbidden, games that play the same answer every sequence of try_play, resume and set_komi in the same way, if both return, and still play the same afterwards. So a sequence of calls after which the game plays the same as before can be repeated: any number of repetitions panics, or all are answered as the first was and the game plays the same again. If a stone is played in it, the repetitions end in a panic: after at most 131070*(n+1)+n of them (n the number of points), all answered alike, the next one panics.", "quantifier": "every game reached through try_play, resume and set_komi on every supported board size under every rule without super-ko, every sequence of on-board calls of any length, every number of repetitions, both build profiles", "why_tests_cant": "the panic comes after tens of thousands of repetitions, and the claim is made for every cycle", "anchors": ["src/rules/game.rs:try_play", "src/rules/game.rs:play", "src/rules/game.rs:check_ko", "src/rules/game.rs:resume", "src/pieces/goban.rs:push", "src/pieces/goban.rs:create_chain", "src/pieces/goban.rs:eq"]}
{"id": "C131", "title": "What a caught panic leaves behind", "statement": "A caller can catch a panic and go on with the board or game. (1) If push on an empty point panics, then afterwards every point shows what it showed before and the hash is unchanged, but number_of_stones counts the stone that is not there, the opposing groups beside the point have lost it as a liberty, and the group table has 65,536 entries. (2) If play on an empty point panics, the board is as in (1), the position before is in the history, and nothing else has changed: turn, passes, prisoners, ko point, outcome, rules and handicap are as before. (3) If try_play on a point panics, the game is unchanged if the panic came while the move was tried out for super-ko; otherwise it is as in (2). (4) A panicking third pass changes nothing. (5) After such a panic of push another stone on a point with nothing beside it is accepted, and its point then shows the colour of the first group ever recorded on the board, whatever was pushed, or get_color panics there if that group is gone. All other points are unaffected. (6) The same for try_play of the same move again in a game: it is accepted and the turn passes. (7) If push_many or put_handicap panics at a stone, the stones before it are on the board and that one leaves what push leaves. For put_handicap the handicap is then the number of all stones asked for and the turn is as before. All of this is the same in both build profiles.", "quantifier": "every board made with Goban::new, push on empty points and removal of groups, every game reached with the public calls, on every supported board size and under every rule, every point, both build profiles", "why_tests_cant": "the panic needs 65,535 group records, and what is left depends on the order of the assignments inside the call, which no return value shows", "anchors": ["src/pieces/goban.rs:push_wth_feedback", "src/pieces/goban.rs:create_chain", "src/pieces/goban.rs:update_chain_indexes_in_board", "src/pieces/goban.rs:push", "src/pieces/goban.rs:number_of_stones", "src/rules/game.rs:play", "src/rules/game.rs:try_play"]}
{"id": "C132", "title": "What a caught panic of a stone beyond the table leaves behind", "statement": "push and play with x·height + y = i ≥ 361 panic (C77). (1) In a debug build the board is afterwards exactly as before. (2) So it is in a release build, unless the height is 19, i ≤ 367 and the point (18, i mod width) has a stone of the colour put. (3) In that case every point shows what it showed before, and hash and number of stones are unchanged, but the group of that stone is damaged: chain_stones and remove_chain panic for it. chain_stones of every other group is as before. (4) play leaves the position in the history and the board as in (1) to (3); nothing else has changed. (5) try_play panics before anything has changed.", "quantifier": "every board made with Goban::new, push on empty points and removal of groups, every reachable game, on every supported board size, every x and y with i ≥ 361, both colours, both build profiles", "why_tests_cant": "after the panic all queries about points answer as before; the damage shows only when the group is listed or captured, and only seven indices and one board height have it", "anchors": ["src/pieces/goban.rs:push_wth_feedback", "src/pieces/goban.rs:add_stone_to_chain", "src/pieces/goban.rs:chain_stones", "src/pieces/goban.rs:remove_chain", "src/pieces/group.rs:remove_liberty", "src/rules/game.rs:play", "src/rules/game.rs:try_play"]}
{"id": "C133", "title": "What a caught panic of a stone put on a stone leaves behind in a debug build", "statement": "In a debug build push and play on an occupied point of the board with an occupied neighbour panic (C76). (1) If a neighbour is a stone of the other colour than the one put, or the neighbours of that colour belong to one group, the board is afterwards exactly as before. (2) Otherwise the stone on the point was of the other colour and a group of its own. Unless the table of groups is full, the board is then the one a release build returns, with the hash of before: the point shows the new colour, no other point has changed, and number_of_stones still counts the stone that was there. (3) If the table is full, the points and the hash are as before and one stone more is counted. (4) play leaves the position in the history and the board as in (1) to (3); nothing else has changed, in particular it is still the same player's turn. (5) After (2) every point that was empty still is, and every push of a debug build on such a point, of either colour, panics. (6) In a game in which play has panicked as in (2), no stone is put any more: whatever moves on the board try_play of a debug build is asked later, it refuses a stone or panics, and the board stays as it is.", "quantifier": "every board made with Goban::new, push on empty points and removal of groups, every reachable game, on every supported board size, every occupied point with an occupied neighbour, both colours", "why_tests_cant": "what is left depends on how the groups around the point are joined, and the tests do not catch panics", "anchors": ["src/pieces/goban.rs:push", "src/pieces/goban.rs:push_wth_feedback", "src/pieces/group.rs:remove_liberty", "src/rules/game.rs:play"]}
{"id": "C134", "title": "What a caught panic of remove_chain leaves behind", "statement": "(1) On a board made with the public calls, a remove_chain that panics (its argument names no group) leaves the board exactly as it was, in both build profiles. (2) In a release build, after push of a stone beyond the table has damaged a group as in C132 (3), remove_chain of that group panics only when it has taken all its stones off the board. Every point then shows what it would show had the removal succeeded, and the hash and the other groups, with their liberties, are those of that board too, but number_of_stones still counts the stones that are gone. (3) There is a game in which the capture of such a group panics and leaves the capturing stone on the board and the captured stone gone but still counted, with the turn and the prisoners of before.", "quantifier": "every board made with Goban::new, push on empty points and removal of groups, on every supported board size, every argument of remove_chain; (3) is a game on 19 by 19", "why_tests_cant": "the walk fails only after the last stone, so that what is left looks like a finished removal to every query but one", "anchors": ["src/pieces/goban.rs:remove_chain", "src/pieces/goban.rs:remove_captured_stones_aux", "src/rules/game.rs:remove_captured_stones"]}
