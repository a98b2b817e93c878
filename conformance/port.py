"""A port of the Rust sources read as text, statement by statement, independent of the Lean model."""
import re, struct, math
SRC = open('/repo/src/pieces/zobrist.rs').read()
Z = [int(x, 16) for x in re.findall(r'0x[0-9a-fA-F]+', SRC)]
assert len(Z) == 722
class Panic(Exception): pass
class Diverge(Exception): pass
B, W = 1, 2
DBG = True
def other(c): return W if c == B else B
def dassert(b):
    if DBG and not b: raise Panic()
def idx(l, i):
    if i < 0 or i >= len(l): raise Panic()
    return l[i]
def setidx(l, i, v):
    if i < 0 or i >= len(l): raise Panic()
    l[i] = v
def add8(a, b):
    if a + b > 255:
        if DBG: raise Panic()
        return (a + b) & 255
    return a + b
def mul8(a, b):
    if a * b > 255:
        if DBG: raise Panic()
        return (a * b) & 255
    return a * b
def sub8(a, b):
    if a < b:
        if DBG: raise Panic()
        return (a - b) & 255
    return a - b
def add16(a, b):
    if a + b > 65535:
        if DBG: raise Panic()
        return (a + b) & 65535
    return a + b
def f32(x):
    try: return struct.unpack('f', struct.pack('f', x))[0]
    except OverflowError: return math.inf if x > 0 else -math.inf
# ---- util.rs
def is_valid(size, c): return c[0] < size[0] and c[1] < size[1]
def two1(size, p): return p[0] * size[0] + p[1]
def one2(size, i):
    if size[0] == 0: raise Panic()
    a = (i // size[0]) & 255
    if size[1] == 0: raise Panic()
    return (a, (i % size[1]) & 255)
def neighbor_coords(c):
    x1, x2 = c
    return [(add8(x1, 1), x2), ((x1 - 1) & 255, x2), (x1, add8(x2, 1)), (x1, (x2 - 1) & 255)]
def valid_coords(c, size): return [x for x in neighbor_coords(c) if is_valid(size, x)]
def corner_points(c):
    x1, x2 = c
    return [(add8(x1, 1), add8(x2, 1)), ((x1 - 1) & 255, (x2 - 1) & 255), (add8(x1, 1), (x2 - 1) & 255), ((x1 - 1) & 255, add8(x2, 1))]
def zob(i, color): return idx(Z, i + 361 * (color - 1))
# ---- group.rs
SIZE = 361 // 8 + 1
class Group:
    __slots__ = ('color', 'origin', 'last', 'lib', 'num')
    def __init__(s, color, stone, lib):
        s.color = color; s.origin = stone & 65535; s.last = stone & 65535; s.lib = list(lib); s.num = 1
    def copy(s):
        g = Group(s.color, 0, s.lib); g.origin = s.origin; g.last = s.last; g.num = s.num; return g
    def dead(s): return not any(x != 0 for x in s.lib)
    def nlib(s): return sum(bin(x).count('1') for x in s.lib)
    def atari(s): return s.nlib() == 1
    def remove_liberty(s, i):
        if DBG:
            if not bget(i, s.lib): raise Panic()
        bset(False, i, s.lib); return s
    def add_unchecked(s, i): bset(True, i, s.lib); return s
    def add_liberty(s, i):
        if DBG:
            if bget(i, s.lib): raise Panic()
        return s.add_unchecked(i)
    def iter(s, nxt):
        origin = s.origin; cur = s.origin; n = 0
        while cur is not None:
            ret = cur
            v = idx(nxt, cur)
            cur = v if v != origin else None
            if DBG and cur == ret: raise Panic()
            yield ret
            n += 1
            if n > 4 * 361: raise Diverge()
def bset(val, i, lib):
    m = 1 << (i % 8)
    if i // 8 >= len(lib): raise Panic()
    if val: lib[i // 8] |= m
    else: lib[i // 8] &= ~m & 255
def bget(i, lib): return (idx(lib, i // 8) & (1 << (i % 8))) != 0
def iter_ones(lib): return [8 * k + b for k, x in enumerate(lib) for b in range(8) if x >> b & 1]
class Goban:
    def __init__(s, size):
        h, w = size
        if not (h <= 19 and w <= 19): raise Panic()
        s.size = (h, w); s.hash = 0; s.board = [None] * 361; s.next = [0] * 361; s.chains = []
    def clone(s):
        g = Goban((0, 0)); g.size = s.size; g.hash = s.hash; g.board = list(s.board); g.next = list(s.next)
        g.chains = [c.copy() if c is not None else None for c in s.chains]; return g
    def ch(s, i):
        c = idx(s.chains, i)
        if c is None: raise Panic()
        return c
    def live(s): return [c for c in s.chains if c is not None]
    def chain_stones(s, i):
        c = s.ch(i)
        return [(one2(s.size, e), c.color) for e in c.iter(s.next)]
    def to_vec(s): return [0 if p is None else s.ch(p).color for p in s.board]
    def matrix(s):
        k = s.size[1]
        if k == 0: raise Panic()
        return [[0 if p is None else s.ch(p).color for p in s.board[a * k:(a + 1) * k]] for a in range(len(s.board) // k)]
    def number_of_stones(s):
        b = w = 0
        for g in s.live():
            if g.color == W: w += g.num
            else: b += g.num
        return (b, w)
    def neighbors_coords(s, c): return valid_coords(c, s.size)
    def neighbors_idx(s, i): return [two1(s.size, c) for c in s.neighbors_coords(one2(s.size, i))]
    def pwf(s, point, color):
        pi = two1(s.size, point)
        same = []; opp = []; libs = []
        for ni in s.neighbors_idx(pi):
            a = idx(s.board, ni)
            if a is not None:
                if s.ch(a).color == color:
                    if a not in same: same.append(a)
                elif a not in opp: opp.append(a)
            else: libs.append(ni)
        dead = []
        for r in opp:
            g = s.ch(r); g.remove_liberty(pi)
            if g.dead(): dead.append(r)
        if len(same) == 0: up = s.create(pi, color, libs)
        elif len(same) == 1:
            o = same[0]
            g = s.ch(o).remove_liberty(pi)
            for l in libs: g.add_unchecked(l)
            s.add_stone(o, pi)
            if (o & 65535) == 65535: raise Panic()
            setidx(s.board, pi, o & 65535)
            up = o
        else:
            tm = s.create(pi, color, libs)
            for a in same:
                if s.ch(a).nlib() < s.ch(tm).nlib(): s.merge(tm, a)
                else:
                    s.merge(a, tm); tm = a
            s.ch(tm).remove_liberty(pi)
            up = tm
        s.hash ^= zob(pi, color)
        if DBG: s.integrity()
        return dead, up
    def rcs(s, suicide_allowed, dead, added):
        only = len(dead) == 1
        rem = [0, 0]; ko = None
        for d in dead:
            c = s.ch(d)
            if c.num == 1 and only: ko = one2(s.size, c.origin)
            rem[0 if c.color == W else 1] += c.num
            s.remove_chain(d)
        c = s.ch(added)
        if suicide_allowed and c.dead():
            rem[0 if c.color == W else 1] += c.num
            ko = None
            s.remove_chain(added)
        return rem, ko
    def push(s, p, color):
        dassert(p[0] < s.size[0]); dassert(p[1] < s.size[1])
        s.pwf(p, color)
    def connected_points(s, c):
        for p in s.neighbors_coords(c): yield (p, s.get_color(p))
    def groups_idx(s, i):
        out = []
        for n in s.neighbors_idx(i):
            v = idx(s.board, n)
            if v is not None and v not in out: out.append(v)
        return out
    def groups(s, c): return [s.ch(e) for e in s.groups_idx(two1(s.size, c))]
    def get_color(s, c):
        v = idx(s.board, two1(s.size, c))
        return 0 if v is None else s.ch(v).color
    def get_stones(s): return [(one2(s.size, i), s.ch(o).color) for i, o in enumerate(s.board) if o is not None]
    def empty_idx(s): return [i for i, o in enumerate(s.board) if o is not None]
    def empty_coords(s):
        for i in range(s.size[0] * s.size[1]):
            if s.board[i] is None: yield one2(s.size, i)
    def coords_by_color(s, col):
        res = []
        for i in range(mul8(s.size[0], s.size[1])):
            if col == 0: res.append(one2(s.size, i))
            else:
                o = idx(s.board, i)
                if o is not None and s.ch(o).color == col: res.append(one2(s.size, i))
        return res
    def liberties(s, c):
        for x in s.neighbors_coords(c):
            if s.get_color(x) == 0: yield x
    def has_liberties(s, c): return next(s.liberties(c), None) is not None
    def pretty(s):
        out = ''
        for i in range(s.size[0]):
            for j in range(s.size[1]):
                k = s.get_color((i, j))
                if k == B: out += '●'
                elif k == W: out += '○'
                else:
                    t = i == 0; b = i == sub8(s.size[0], 1); l = j == 0; r = j == sub8(s.size[1], 1)
                    if t and l: out += '┏'
                    elif t and r: out += '┓'
                    elif b and l: out += '┗'
                    elif b and r: out += '┛'
                    elif t: out += '┯'
                    elif b: out += '┷'
                    elif l: out += '┠'
                    elif r: out += '┨'
                    else: out += '┼'
            out += '/'
        return out
    def remove_chain(s, k):
        c = s.ch(k).copy()
        for p in c.iter(s.next):
            nb = [x for x in s.groups_idx(p) if x != k]
            for n in nb: s.ch(n).add_liberty(p)
            s.hash ^= zob(p, c.color)
            setidx(s.board, p, None)
        setidx(s.chains, k, None)
    def update_idx(s, k):
        if DBG:
            if list(s.ch(k).iter(s.next))[-1] & 65535 != s.ch(k).last: raise Panic()
        for p in s.ch(k).iter(s.next):
            if (k & 65535) == 65535: raise Panic()
            setidx(s.board, p, k & 65535)
    def create(s, origin, color, libs):
        lb = [0] * SIZE
        for l in libs: bset(True, l, lb)
        g = Group(color, origin, lb)
        setidx(s.next, origin, origin & 65535)
        s.chains.append(g)
        k = len(s.chains) - 1
        s.update_idx(k)
        return k
    def add_stone(s, k, st):
        g = s.ch(k)
        if st < g.origin:
            setidx(s.next, st, g.origin)
            setidx(s.next, g.last, st & 65535)
            g.origin = st & 65535
        else:
            setidx(s.next, g.last, st & 65535)
            setidx(s.next, st, g.origin)
            g.last = st & 65535
        g.num = add16(g.num, 1)
        if DBG:
            if list(s.ch(k).iter(s.next))[-1] & 65535 != s.ch(k).last: raise Panic()
    def merge(s, k1, k2):
        if s.ch(k1).color != s.ch(k2).color: raise Panic()
        if k1 == k2: raise Panic()
        c1 = s.ch(k1); c2 = s.ch(k2)
        c1.lib = [a | b for a, b in zip(c1.lib, c2.lib)]
        l1, l2, o1, o2 = c1.last, c2.last, c1.origin, c2.origin
        if o1 > o2: c1.origin = o2
        else: c1.last = l2
        a, b = idx(s.next, l1), idx(s.next, l2)
        s.next[l1], s.next[l2] = b, a
        c1.num = add16(c1.num, c2.num)
        s.update_idx(k1)
        setidx(s.chains, k2, None)
    def integrity(s):
        for k, c in enumerate(s.chains):
            if c is None: continue
            it = c.iter(s.next)
            if next(it) & 65535 != c.origin: raise Panic()
            if list(c.iter(s.next))[-1] & 65535 != c.last: raise Panic()
            if len(list(c.iter(s.next))) & 65535 != c.num: raise Panic()
    def eq(s, o):
        if s.size != o.size or s.hash != o.hash: return False
        for x in range(s.size[0]):
            for y in range(s.size[1]):
                if s.get_color((x, y)) != o.get_color((x, y)): return False
        return True
    # territory.rs
    def group_from_point(s, st):
        ex = {st}
        todo = [p for p in s.connected_points(st[0]) if p[1] == st[1]]
        n = 0
        while todo:
            q = todo.pop(); ex.add(q)
            for p in s.connected_points(q[0]):
                if p[1] == st[1] and p not in ex: todo.append(p)
            n += 1
            if n > 200000: raise Diverge()
        return ex
    def chains_from(s, stones):
        gs = []
        for q in stones:
            if not any(q in x for x in gs): gs.append(s.group_from_point(q))
        return gs
    def territories(s):
        bt = []; wt = []
        for grp in s.chains_from((c, 0) for c in s.empty_coords()):
            nb = nw = False; out = False
            for e in sorted(grp):
                for p in s.connected_points(e[0]):
                    if p[1] == W: nw = True
                    if p[1] == B: nb = True
                    if nb and nw: out = True; break
                if out: break
            if out: continue
            if nb and not nw: bt += grp
            elif nw and not nb: wt += grp
        return bt, wt
KO, SUPERKO, SUICIDE, FILLEYE = 1, 2, 4, 8
STONES, KOMI, PRIS = 1, 2, 4
class Game:
    def __init__(s, size, ill, sc, komi):
        s.g = Goban(size); s.passes = 0; s.pris = [0, 0]; s.outcome = None; s.turn = B
        s.ill = ill; s.sc = sc; s.komi = komi; s.handicap = 0; s.hist = []; s.ko = None
    def contains(s, x): return any(h.eq(x) for h in s.hist)
    def is_over(s): return True if s.outcome is not None else s.passes >= 2
    def get_outcome(s):
        if not s.is_over(): return None
        if s.outcome is not None: return s.outcome
        a, b = s.score(s.sc)
        if abs(f32(a - b)) < 2.0 ** -23: return 'D'
        if a > b: return ('S', B, f32(a - b))
        return ('S', W, f32(b - a))
    def pseudo(s): return s.g.empty_coords()
    def pseudo_vec(s):
        sz = s.g.size; mul8(sz[0], sz[1]); out = []
        for i in range(sz[0]):
            for j in range(sz[1]):
                if idx(s.g.board, two1(sz, (i, j))) is None: out.append((i, j))
        return out
    def legals_by(s, fl): return [c for c in s.pseudo() if s.check_point_by(c, fl) is None]
    def play(s, m):
        if m[0] == 'P':
            if not s.passes < 2: raise Panic()
            s.turn = other(s.turn); s.ko = None; s.passes += 1
        elif m[0] == 'R': s.outcome = ('R', m[1])
        else:
            if not s.contains(s.g): s.hist.append(s.g.clone())
            dead, added = s.g.pwf((m[1], m[2]), s.turn)
            s.ko = None
            rem, ko = s.g.rcs(not (s.ill & SUICIDE), dead, added)
            s.pris[0] += rem[0]; s.pris[1] += rem[1]
            s.ko = ko
            s.turn = other(s.turn); s.passes = 0
    def pfv(s, c):
        t = s.g.clone()
        d, a = t.pwf(c, s.turn)
        t.rcs(bool(s.ill & SUICIDE), d, a)
        return t
    def try_play(s, m):
        if s.passes == 2: return 'GamePaused'
        if m[0] == 'p':
            c = (m[1], m[2])
            if s.g.get_color(c) != 0: return 'PointNotEmpty'
            e = s.check_point_by(c, s.ill)
            if e is not None: return e
        s.play(m); return 'ok'
    def put_handicap(s, pts):
        s.handicap = len(pts)
        for p in pts: s.g.push(p, B)
        s.turn = W
    def score(s, fl):
        bt, wt = s.g.territories()
        a, b = float(len(bt)), float(len(wt))
        if fl & PRIS: a = f32(a + s.pris[0]); b = f32(b + s.pris[1])
        if fl & STONES:
            x, y = s.g.number_of_stones(); a = f32(a + x); b = f32(b + y)
        if fl & KOMI: b = f32(b + s.komi)
        return a, b
    def will_capture(s, c): return any(g.color != s.turn and g.atari() for g in s.g.groups(c))
    def check_point_by(s, c, fl):
        st = (c, s.turn)
        if s.g.get_color(c) != 0: return 'PointNotEmpty'
        if fl & SUICIDE and s.check_suicide(st): return 'Suicide'
        if fl & KO and s.check_ko(st): return 'Ko'
        if fl & FILLEYE and s.check_eye(st): return 'FillEye'
        if fl & SUPERKO and s.check_super_ko(st): return 'Ko'
        return None
    def helper_eye(s, p, color):
        a = []; o = []; e = []
        for q in corner_points(p):
            if is_valid(s.g.size, q):
                k = s.g.get_color(q)
                if k == 0: e.append(q)
                elif k == color: a.append(q)
            else: o.append(q)
        return a, o, e
    def check_eye(s, st):
        c, color = st
        if s.g.get_color(c) != 0: return False
        if any(p[1] != color for p in s.g.connected_points(c)): return False
        a, o, e = s.helper_eye(c, color)
        t = len(a) + len(o)
        if t == 4: return True
        if t in (3, 2):
            for q in e:
                if any(p[1] != 0 and p[1] != color for p in s.g.connected_points(q)): return False
                ca, co, _ = s.helper_eye(q, color)
                if len(ca) + len(co) in (3, 2): return True
        return False
    def check_ko(s, st): return s.ko == st[0] and not any(g.atari() and g.num > 1 for g in s.g.groups(st[0]))
    def check_super_ko(s, st):
        if len(s.hist) <= 2 or not s.will_capture(st[0]): return False
        t = s.pfv(st[0])
        return s.check_ko(st) or s.contains(t)
    def check_suicide(s, st):
        if s.g.has_liberties(st[0]): return False
        return not any((not g.atari()) if g.color == st[1] else g.atari() for g in s.g.groups(st[0]))
    def floating(s):
        cnt = {}
        for p in s.pseudo():
            if s.check_eye((p, B)) or s.check_eye((p, W)):
                for k in s.g.groups_idx(two1(s.g.size, p)):
                    cnt[k] = cnt[k] + 1 if k in cnt else 0
        two = {k for k, v in cnt.items() if v >= 2}
        return [i for i, _ in enumerate(s.g.live()) if i in two]
    def legals_moves(s):
        l = s.legals_by(s.ill | FILLEYE)
        if not l: return [] if s.is_over() else ['P']
        return l
def build(size, ill, sc, komi, hp, setup, turn, moves, outcome=None):
    g = Game(size, ill, sc, komi)
    g.handicap = len(hp)
    for p in hp: g.g.push(p, B)
    for c, col in setup: g.g.push(c, col)
    g.turn = turn if turn else (W if g.handicap else B)
    for m in moves: g.play(m)
    return g
def of_slice(stones):
    n = int(f32(math.sqrt(len(stones)))) & 255 if len(stones) < 65536 else 255
    g = Goban((n, n))
    for i, k in enumerate(stones):
        c = one2((n, n), i)
        if k: g.push(c, k)
    return g

class Builder:
    """game_builder.rs."""
    def __init__(s):
        s.size = (19, 19); s.rule = (KO | SUPERKO | SUICIDE, KOMI | STONES, 7.5); s.komi = None; s.handicap = None; s.hp = []
        s.turn = None; s.moves = []; s.outcome = None; s.setup = []
    def build(s):
        ill, sc, komi = s.rule
        g = Game(s.size, ill, sc, komi)
        handicap = len(s.hp) if s.handicap is None else s.handicap
        for p in s.hp: g.g.push(p, B)
        for c, col in s.setup: g.g.push(c, col)
        if s.komi is not None: g.komi = s.komi
        g.turn = s.turn if s.turn is not None else (W if handicap != 0 else B)
        g.outcome = s.outcome; g.handicap = handicap
        for m in s.moves: g.play(m)
        return g
def from_nodes(nodes):
    """sgf_bridge.rs after the parser: nodes are lists of tokens."""
    b = Builder(); first = True; moves = []
    for node in nodes:
        if first:
            for t in node:
                k = t[0]
                if k == 'komi': b.komi = t[1]
                elif k == 'size': b.size = (t[1] & 255, t[2] & 255)
                elif k == 'result': b.outcome = t[1]
                elif k == 'add': b.setup.append(((sub8(t[3], 1), sub8(t[2], 1)), t[1]))
                elif k == 'rule':
                    if t[1] == 'J': b.rule = (KO | SUICIDE, KOMI | PRIS, 6.5)
                    elif t[1] == 'C': b.rule = (KO | SUPERKO | SUICIDE, KOMI | STONES, 7.5)
                    else: raise Panic()
                elif k == 'handicap': b.handicap = t[1]
                elif k == 'game':
                    if not t[1]: raise Panic()
                for u in node:
                    if u[0] == 'unknown' and u[1] == 'PL':
                        if u[2] == 'B': b.turn = B
                        elif u[2] == 'W': b.turn = W
                        else: raise Panic()
            first = False
        elif node:
            t = node[0]
            if t[0] == 'move':
                moves.append(('P',) if t[2] is None else ('p', sub8(t[2][1], 1), sub8(t[2][0], 1)))
    b.moves = moves
    return b.build()
