"""Random sessions on the port (port.py) and on the compiled Lean model (Driver.lean.txt), compared line by line.

Usage: DRIVER=path python3 compare.py seed scenarios sq|fit|any|big|sgf
"""
import os, sys, random, subprocess, traceback
from fractions import Fraction
sys.path.insert(0, os.path.dirname(os.path.abspath(__file__)))
import port
from port import *
def cs(c): return f"{c[0]},{c[1]}"
def grp(g): return '-' if g is None else f"{g.color}:{g.origin}:{g.last}:{g.num}:" + ','.join(map(str, iter_ones(g.lib)))
def sgob(g):
    return f"{cs(g.size)} {g.hash} " + ';'.join(map(grp, g.chains)) + ' ' + ','.join(f"{i}={v}" for i, v in enumerate(g.board) if v is not None) + ' ' + ','.join(f"{i}={v}" for i, v in enumerate(g.next) if v)
def fl(x):
    if math.isnan(x): return 'nan'
    if math.isinf(x): return 'inf' if x > 0 else '-inf'
    f = Fraction(x); return f"{f.numerator}/{f.denominator}"
def eg(o):
    if o is None: return 'none'
    if o == 'D': return 'D'
    if o[0] == 'S': return f"S{o[1]}{fl(o[2])}"
    return f"{o[0]}{o[1]}"
def sgame(g):
    return sgob(g.g) + f" {g.passes} {g.pris[0]},{g.pris[1]} {eg(g.outcome)} {g.turn} {g.handicap} " + ('-' if g.ko is None else cs(g.ko)) + ' ' + ';'.join(str(h.hash) for h in g.hist)
def sh(f, k):
    try: v = k()
    except Panic: return 'panic'
    except Diverge: return 'diverge'
    return f(v)
def bl(b): return 'true' if b else 'false'
J = ';'.join
pt = lambda p: f"{cs(p[0])}:{p[1]}"
pe = lambda e: 'none' if e is None else e
def colq(g, c):
    b = g.g
    out = [sh(str, lambda: b.get_color(c)), sh(lambda l: J(map(cs, l)), lambda: list(b.liberties(c))), sh(bl, lambda: b.has_liberties(c)),
      sh(lambda l: J(map(pt, l)), lambda: list(b.connected_points(c))), sh(lambda l: J(map(pt, l)), lambda: [p for p in b.connected_points(c) if p[1]]),
      sh(lambda l: J(map(str, l)), lambda: b.groups_idx(two1(b.size, c))), sh(bl, lambda: g.will_capture(c)), sh(lambda p: str(p.hash), lambda: g.pfv(c))]
    out += [sh(pe, lambda: g.check_point_by(c, n)) for n in range(16)]
    for k in (B, W):
        out += [sh(bl, lambda: g.check_eye((c, k))), sh(bl, lambda: g.check_ko((c, k))), sh(bl, lambda: g.check_suicide((c, k))), sh(bl, lambda: g.check_super_ko((c, k)))]
    return ' # '.join(out)
def allq(g):
    b = g.g; JC = lambda l: J(map(cs, l))
    out = [sh(JC, lambda: list(g.pseudo())), sh(JC, g.pseudo_vec)]
    out += [sh(JC, lambda: g.legals_by(n)) for n in range(16)]
    out += [sh(lambda l: J(map(str, l)), b.to_vec), sh(lambda m: J(','.join(map(str, r)) for r in m), b.matrix), "%d,%d" % b.number_of_stones(),
      sh(lambda l: J(map(pt, l)), b.get_stones), J(map(str, b.empty_idx()))]
    out += [sh(JC, lambda: b.coords_by_color(k)) for k in (0, 1, 2)]
    out += [sh(str, b.pretty), sh(lambda t: J(sorted(map(pt, t[0]))) + ' | ' + J(sorted(map(pt, t[1]))), b.territories),
      sh(lambda t: f"{fl(t[0])} {fl(t[1])}", lambda: g.score(g.sc)), sh(eg, g.get_outcome), sh(lambda l: J(map(str, l)), g.floating),
      sh(lambda l: J('P' if m == 'P' else cs(m) for m in l), g.legals_moves)]
    out += [sh(lambda l: J(map(pt, l)), lambda: b.chain_stones(k)) for k in range(len(b.chains) + 1)]
    return ' # '.join(out)
def record(R):
    """A random main line, as numbers for the driver and as tokens for the port."""
    s = R.choice([1, 2, 3, 4, 5, 5, 9]); odd = R.random() < .2
    def q():
        if odd and R.random() < .1: return R.choice([0, s + 1, 255])
        return R.randint(1, s)
    def tok(root):
        k = R.choice([0, 1, 2, 3, 3, 3, 4, 5, 6, 8, 9]) if root else 7 if R.random() < .9 else R.choice([3, 9])
        if k == 0: v = R.randint(0, 20); return [0, v], ('komi', v / 2)
        if k == 1: y = s if R.random() < .8 else R.randint(1, 300); x = s if R.random() < .9 else R.randint(1, 300); return [1, x, y], ('size', x, y)
        if k == 2:
            w = R.randint(0, 4); c = R.choice([1, 2]); p = R.randint(0, 9)
            if w == 4: return [2, 4], ('result', 'D')
            if w == 2: return [2, 2, c, p], ('result', ('S', c, p / 2))
            return [2, w, c], ('result', ('RF T'[w], c))
        if k == 3: c, x, y = R.choice([1, 2]), q(), q(); return [3, c, x, y], ('add', c, x, y)
        if k == 4: r = R.choice([0, 0, 1, 1, 1, 2]) if odd else R.choice([0, 1]); return [4, r], ('rule', 'JCX'[r])
        if k == 5: h = R.randint(0, 3); return [5, h], ('handicap', h)
        if k == 6: b = int(not odd or R.random() < .8); return [6, b], ('game', b)
        if k == 7:
            c = R.choice([1, 2])
            if R.random() < .1: return [7, c, 0], ('move', c, None)
            x, y = q(), q(); return [7, c, 1, x, y], ('move', c, (x, y))
        if k == 8: w, v = R.choice([0, 0, 1]), R.choice([0, 1, 2] if odd else [0, 1]); return [8, w, v], ('unknown', ['PL', 'ZZ'][w], 'BWX'[v])
        return [9], ('other',)
    ns, ts = [], []
    N = R.choice([0, 1, 1, 3, 8, 20]); ns.append(N)
    seen = set()
    for i in range(N):
        L = [tok(i == 0) for _ in range(R.choice([0, 1, 3, 8]) if i == 0 else R.choice([0, 1, 1, 1, 2]))]
        if i == 0 and not odd: L.insert(0, ([1, s, s], ('size', s, s)))
        if R.random() < .7:
            L = [t for t in L if not (t[1][0] == 'add' and t[1][2:] in seen or t[1][0] == 'move' and t[1][2] in seen) or R.random() < .02]
        for t in L:
            if t[1][0] == 'add': seen.add(t[1][2:])
            if t[1][0] == 'move' and t[1][2]: seen.add(t[1][2])
        ns.append(len(L))
        for t in L: ns += t[0]
        ts.append([t[1] for t in L])
    return ns, ts
class Lines(list):
    """The expected lines, and for each of them the call it belongs to."""
    def __init__(s, ops): s.ops = ops; s.of = []
    def append(s, x): super().append(x); s.of.append(len(s.ops) - 1)
def run(seed, n, mode):
    R = random.Random(seed); ops = []; exp = Lines(ops); left = 0
    for _ in range(n):
        port.DBG = R.random() < 0.5
        d = int(port.DBG)
        r = R.random()
        if mode == 'sq': s = R.choice([1, 2, 2, 3, 3, 4, 5, 6, 7]); size = (s, s)
        elif mode == 'big': size = R.choice([(9, 9), (13, 13), (19, 19), (19, 1), (16, 16), (17, 17), (18, 9)])
        elif mode == 'fit': w = R.randint(1, 6); size = (w * R.randint(1, 3), w)
        else: size = (R.randint(0, 8), R.randint(0, 8)) if r < .8 else (R.randint(0, 21), R.randint(0, 21))
        ill = R.randint(0, 15); sc = R.randint(0, 7); komi = R.randint(0, 20)
        if mode == 'sgf':
            ns, ts = record(R)
            ops.append('F %d ' % d + ' '.join(map(str, ns)))
            try: g = from_nodes(ts); exp.append(sgame(g)); ops.append('Q'); exp.append(allq(g))
            except Panic: exp.append('panic')
            except Diverge: exp.append('diverge')
            continue
        if R.random() < .15 and mode != 'any' or R.random() < .05:
            L = R.randint(0, 40); st = [R.choice([0, 0, 1, 2]) for _ in range(L)]
            ops.append('S %d ' % d + ' '.join(map(str, st))); exp.append(sh(sgob, lambda: of_slice(st))); continue
        off = R.random() < .15
        wild = R.random() < .25
        def rc():
            if off and R.random() < .1: return (R.choice([size[0], size[0] + 1, 254, 255, R.randint(0, 255)]), R.choice([0, size[1], 255, R.randint(0, 255)]))
            return (R.randrange(max(1, size[0])), R.randrange(max(1, size[1])))
        dup = R.random() < .3
        if R.random() < .4:
            hp = [rc() for _ in range(R.choice([0, 0, 1, 2, 3]))]; su = [(rc(), R.choice([1, 2])) for _ in range(R.choice([0, 1, 2, 5, 10]))]
            if not dup:
                seen = set(); hp2 = []
                for p in hp:
                    if p not in seen: seen.add(p); hp2.append(p)
                su2 = []
                for p in su:
                    if p[0] not in seen: seen.add(p[0]); su2.append(p)
                hp, su = hp2, su2
            mv = []
            t = R.choice([0, 0, 1, 2])
            ops.append(f"B {d} {size[0]} {size[1]} {ill} {sc} {komi} {t} {len(hp)} " + ' '.join(f"{a} {b}" for a, b in hp) + f" {len(su)} " + ' '.join(f"{a} {b} {c}" for (a, b), c in su) + ' 0')
            try: g = build(size, ill, sc, komi / 2, hp, su, t, []); exp.append(sgame(g))
            except Panic: exp.append('panic'); continue
            except Diverge: exp.append('diverge'); continue
        else:
            ops.append(f"N {d} {size[0]} {size[1]} {ill} {sc} {komi}")
            try: g = Game(size, ill, sc, komi / 2); exp.append(sgame(g))
            except Panic: exp.append('panic'); continue
        L = R.choice([5, 20, 60]) if mode != 'big' else R.choice([40, 150])
        for _ in range(L):
            r = R.random()
            try:
                if r < .03: ops.append('P'); g.play(('P',)); exp.append(sgame(g))
                elif r < .04: ops.append('tP'); e = g.try_play(('P',)); exp.append(pe(None if e == 'ok' else e)); exp.append(sgame(g))
                elif r < .05: ops.append('u'); g.passes = 0; exp.append(sgame(g))
                elif r < .055: ops.append('R 1'); g.play(('R', 1)); exp.append(sgame(g))
                elif r < .06: k = R.randint(0, 40); ops.append(f'k {k}'); g.komi = k / 2; exp.append(sgame(g))
                elif r < .065:
                    pts = [rc() for _ in range(R.randint(0, 2))]
                    if not dup: pts = [p for i, p in enumerate(pts) if p not in pts[:i] and (is_valid(size, p) and g.g.get_color(p) == 0)]
                    ops.append('h %d ' % len(pts) + ' '.join(f"{a} {b}" for a, b in pts)); g.put_handicap(pts); exp.append(sgame(g))
                elif r < .12 or (r < .3 and wild):
                    c = rc()
                    if not dup:
                        try:
                            if g.g.get_color(c): continue
                        except Panic: pass
                    ops.append('p %d %d' % c); g.play(('p', *c)); exp.append(sgame(g))
                else:
                    c = rc()
                    if R.random() < .6:
                        try:
                            l = g.legals_by(g.ill)
                            if l: c = R.choice(l)
                        except (Panic, Diverge): pass
                    ops.append('t %d %d' % c)
                    e = g.try_play(('p', *c)); exp.append(pe(None if e == 'ok' else e)); exp.append(sgame(g))
            except Panic as ex:
                exp.append('panic')
                if ops[-1][0] == 't': exp.append('panic')
                # The session goes on with what the call has left, unless it panicked in a walk that the model does before the writes.
                at = [f.name for f in traceback.extract_tb(ex.__traceback__)]
                if 'update_idx' in at and 'iter' in at: exp.append(None); break
                exp.append(sgame(g)); left += 1
            except Diverge:
                exp.append('diverge')
                if ops[-1][0] == 't': exp.append('diverge')
                break
            if R.random() < (.15 if mode != 'big' else .02): ops.append('Q'); exp.append(allq(g))
            if R.random() < .4: c = rc(); ops.append('q %d %d' % c); exp.append(colq(g, c))
            if R.random() < .15:
                c = rc(); ops.append('g %d %d' % c); exp.append(sh(lambda x: J(sorted(map(pt, x))), lambda: g.g.group_from_point((c, g.g.get_color(c)))))
    return ops, exp, left
if __name__ == '__main__':
    seed, n, mode = int(sys.argv[1]), int(sys.argv[2]), sys.argv[3]
    ops, exp, left = run(seed, n, mode)
    r = subprocess.run([os.environ['DRIVER']], input='\n'.join(ops) + '\n', capture_output=True, text=True)
    got = r.stdout.split('\n')[:-1]
    bad = [(i, a, b) for i, (a, b) in enumerate(zip(exp, got)) if a is not None and a.rstrip() != b.rstrip()]
    print(mode, seed, 'ops', len(ops), 'lines', len(exp), len(got), 'panics', sum(e is not None and e.strip() == 'panic' for e in exp), 'left', left, 'div', sum(e is not None and 'diverge' in e for e in exp), 'mismatches', len(bad), r.stderr[:200])
    for i, a, b in bad[:3]:
        k = exp.of[i]
        s = k
        while ops[s][0] not in 'NBSF': s -= 1
        print('LINE', i, 'SCEN', ops[s], '...', ops[max(s, k - 3):k + 1])
        aa = a.split(' # '); bb = b.split(' # ')
        for j, (x, y) in enumerate(zip(aa, bb)):
            if x.rstrip() != y.rstrip(): print('  field', j, 'EXP', x[:300], '\n     GOT', y[:300]); break
