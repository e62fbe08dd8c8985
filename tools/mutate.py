#!/usr/bin/env python3
"""Run seeded mutants: mutate.py MUTANTS.json
Each entry: file, old, new, def, edit, claim.  A scratch copy of /verif/lean in /tmp/mut/lean is edited, rebuilt, and the theorems that fail are
logged to /verif/seeded/LOG.jsonl."""
import json, os, re, subprocess, sys
SRC, DST = '/tmp/mut/pristine', '/tmp/mut/lean'
LOG = '/verif/seeded/LOG.jsonl'
def sh(*a, **k): return subprocess.run(a, capture_output=True, text=True, **k)
def enclosing(path, line):
    ls = open(path).read().split('\n')
    for i in range(min(line, len(ls)) - 1, -1, -1):
        m = re.match(r'(?:@\[[^\]]*\] *)?(?:private |protected )*(theorem|lemma|def|example|instance|abbrev)\s*([^\s:({\[]*)', ls[i])
        if m:
            return (m.group(2) or m.group(1)) if m.group(1) != 'example' else 'example@%s:%d' % (os.path.basename(path), i + 1)
    return '?'
def run(m):
    sh('rm', '-rf', DST); sh('cp', '-a', SRC, DST)
    for e in [m] + m.get('also', []):           # the same mistake in several layers
        p = os.path.join(DST, e['file'])
        s = open(p).read()
        if s.count(e['old']) != 1: return {'error': 'old text occurs %d times' % s.count(e['old'])}
        open(p, 'w').write(s.replace(e['old'], e['new']))
    env = dict(os.environ, LEAN_NUM_THREADS='2')
    r = subprocess.run('timeout 1500 lake build 2>&1', shell=True, cwd=DST, env=env, capture_output=True, text=True)
    out = r.stdout
    failed, mods = [], []
    for f, l in re.findall(r'^error: (Verif/\S+\.lean):(\d+):\d+', out, re.M):
        t = os.path.basename(f)[:-5] + ':' + enclosing(os.path.join(DST, f), int(l))
        if t not in failed: failed.append(t)
    for x in re.findall(r'^✖ \[\S+\] (?:Building|Running) (\S+)', out, re.M):
        if x not in mods: mods.append(x)
    if r.returncode != 0 and not failed:
        # the memory ran out in a false evaluation: find the first declaration with an error, or with which the checker runs out of memory
        for x in mods:
            f = x.replace('.', '/') + '.lean'
            ls = open(os.path.join(DST, f)).read().split('\n')
            starts = [i for i, l in enumerate(ls) if re.match(r'(?:@\[[^\]]*\] *)?(?:private |protected )*(theorem|lemma|def|example|instance)\b', l)] + [len(ls) - 1]
            def bad(k):
                open(os.path.join(DST, 'Verif/Cut.lean'), 'w').write('\n'.join(ls[:starts[k]]) + ('' if k == len(starts) - 1 else '\ntheorem cutEnd : True := trivial\nend Sip\n'))
                o = subprocess.run('ulimit -v 9000000; timeout 1500 lake env lean -M 3500 Verif/Cut.lean', shell=True, cwd=DST, env=env, capture_output=True, text=True)
                errs = [int(l) for l in re.findall(r'^Verif/\S+\.lean:(\d+):\d+: error', o.stdout + o.stderr, re.M)]
                errs = [l for l in errs if l <= starts[k]]
                return (errs or [starts[k - 1] + 1]) if (o.returncode not in (0, 1) or errs) else None
            lo, hi = 0, len(starts) - 1          # prefix lo is fine, prefix hi is not
            res = bad(hi)
            while res and hi - lo > 1:
                mid = (lo + hi) // 2
                r2 = bad(mid)
                if r2: hi, res = mid, r2
                else: lo = mid
            for l in res or []:
                t = os.path.basename(f)[:-5] + ':' + enclosing(os.path.join(DST, f), l)
                if t not in failed: failed.append(t)
    return {'failed': failed, 'modules': mods, 'rc': r.returncode, 'tail': out[-300:] if not failed else ''}
def main():
    for m in json.load(open(sys.argv[1])):
        res = run(m)
        if 'error' in res: print('BAD', m['def'], m['edit'], res['error'], flush=True); continue
        survived = res['rc'] == 0
        rec = {'definition': m['def'], 'file': m['file'], 'edit': m['edit'], 'claim': m['claim'], 'theorems_failed': res['failed'],
               'modules_failed': res['modules'], 'killed': not survived, 'theorems_tightened': m.get('tightened', [])}
        open(LOG, 'a').write(json.dumps(rec, ensure_ascii=False) + '\n')
        print('SURVIVED' if survived else 'killed', m['def'], '|', m['edit'], '|', ', '.join(res['failed'][:6]), res['tail'], flush=True)
main()
