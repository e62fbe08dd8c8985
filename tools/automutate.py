#!/usr/bin/env python3
"""Systematic mutants: automutate.py gen OUT.json SEED MAX   makes a random sample of one-token edits of the definitions in lean/Verif/Model;
automutate.py run IN.json OUT.jsonl   builds each in a scratch copy and stops at the first error."""
import json, os, re, random, signal, subprocess, sys, threading, time
SRC, DST = '/tmp/mut/pristine', os.environ.get('MUTDIR', '/tmp/mut/auto')
SKIP = {'CharsetTable', 'TrieTable'}
def defs(text):
    """(name, first line, last line) of the definitions"""
    ls = text.split('\n'); out = []; i = 0
    while i < len(ls):
        m = re.match(r'(?:@\[[^\]]*\] *)?(?:private )?(def|inductive|structure|abbrev)\s+(\S+)', ls[i])
        if m:
            j = i + 1
            while j < len(ls) and (ls[j].startswith(' ') and ls[j].strip()): j += 1
            if m.group(1) in ('def', 'abbrev'): out.append((m.group(2), i, j))
            i = j
        else: i += 1
    return ls, out
OPS = [
 (r'0x([0-9a-fA-F]{2})\b', lambda m: '0x%02x' % ((int(m.group(1), 16) + 1) % 256), 'byte + 1'),
 (r'(?<![\w.])(\d+)(?![\w.])', lambda m: str(int(m.group(1)) + 1), 'number + 1'),
 (r'(?<![\w.])([1-9]\d*)(?![\w.])', lambda m: str(int(m.group(1)) - 1), 'number - 1'),
 (r' < ', lambda m: ' ≤ ', '< to ≤'), (r' ≤ ', lambda m: ' < ', '≤ to <'), (r' > ', lambda m: ' ≥ ', '> to ≥'), (r' ≥ ', lambda m: ' > ', '≥ to >'),
 (r' && ', lambda m: ' || ', '&& to ||'), (r' \|\| ', lambda m: ' && ', '|| to &&'), (r' ∧ ', lambda m: ' ∨ ', 'and to or'), (r' ∨ ', lambda m: ' ∧ ', 'or to and'),
 (r' == ', lambda m: ' != ', '== to !='), (r' = (?=[^>\n]*then)', lambda m: ' ≠ ', '= to ≠'), (r' ≠ ', lambda m: ' = ', '≠ to ='),
 (r'\btrue\b', lambda m: 'false', 'true to false'), (r'\bfalse\b', lambda m: 'true', 'false to true'),
 (r' \+ ', lambda m: ' - ', '+ to -'), (r' - ', lambda m: ' + ', '- to +'),
 (r'\.take ', lambda m: '.drop ', 'take to drop'), (r'\.drop ', lambda m: '.take ', 'drop to take'),
 (r'(?<![\w])(?:P\.)?orErr ', lambda m: '', 'error not recorded'), (r'\bget16 \((\w+) \+ \d+\)', lambda m: 'get16 ' + m.group(1), 'first field read'), (r'P\.sws\b', lambda m: '(pure ())', 'white space not skipped'),
 (r'P\.err\b', lambda m: 'P.fail', 'error not recorded'), (r'P\.fail\b', lambda m: 'P.err', 'error recorded'),
 (r'\.panic\b', lambda m: '.hang', 'panic to hang'),
 (r'\bsome\b', lambda m: 'Option.some', None),
 (r'P\.strEscEmpty', lambda m: 'P.strEsc', 'empty text not accepted'), (r'P\.strEsc\b', lambda m: 'P.str', 'no escapes'), (r'P\.str\b', lambda m: 'P.strEsc', 'escapes'),
 (r'\(x :: xs\)', lambda m: '(xs)', 'element dropped'),
]
def gen(out, seed, mx):
    random.seed(seed); res = []
    d = os.path.join(SRC, 'Verif/Model')
    for f in sorted(os.listdir(d)):
        if f[:-5] in SKIP or not re.search(os.environ.get('MUTFILES', ''), f): continue
        ls, ds = defs(open(os.path.join(d, f)).read())
        for name, a, b in ds:
            cand = []
            for i in range(a, b):
                code = ls[i].split('--')[0]
                start = code.find(':=') + 2 if i == a and ':=' in code else 0
                for rx, fn, lab in OPS:
                    if lab is None: continue
                    for m in re.finditer(rx, code):
                        if m.start() < start: continue
                        if re.search(r'"[^"]*$', code[:m.start()]) and re.search(r'^[^"]*"', code[m.end():]) and code[:m.start()].count('"') % 2 == 1: continue
                        new = code[:m.start()] + fn(m) + code[m.end():]
                        cand.append((i, new, lab, m.start()))
                t = code.strip()
                if i > a and (t.startswith('P.orErr (') or t.startswith('P.skip') or t.startswith('P.sws') or t.startswith('P.crlf') or t.startswith('P.mark') or re.match(r'(put8|put16|put32|skip|lift|orErr|zero|setParsed|setRaw|fixLength|addLength)\b', t)):
                    cand.append((i, '', 'statement dropped: ' + t, 0))
            for i, new, lab, col in cand:
                res.append({'file': 'Verif/Model/' + f, 'def': name, 'line': i, 'old': ls[i], 'new': new, 'edit': lab, 'col': col})
    bydef = {}
    for r in res: bydef.setdefault((r['file'], r['def']), []).append(r)
    for k in bydef: random.shuffle(bydef[k])
    picked, depth = [], 0
    keys = list(bydef)
    while len(picked) < mx and any(len(bydef[k]) > depth for k in keys):
        ks = [k for k in keys if len(bydef[k]) > depth]; random.shuffle(ks)
        for k in ks: picked.append(bydef[k][depth])
        depth += 1
    picked = picked[:mx]
    json.dump(picked, open(out, 'w'), ensure_ascii=False, indent=0)
    print(len(res), 'candidates', len(picked), 'picked', len(keys), 'definitions')
def enclosing(path, line):
    ls = open(path).read().split('\n')
    for i in range(min(line, len(ls)) - 1, -1, -1):
        m = re.match(r'(?:@\[[^\]]*\] *)?(?:private |protected )*(theorem|lemma|def|example|instance|abbrev)\s*([^\s:({\[]*)', ls[i])
        if m: return m.group(2) or m.group(1)
    return '?'
def watchdog():
    while True:
        time.sleep(3)
        for d in os.listdir('/proc'):
            if not d.isdigit(): continue
            try:
                cmd = open('/proc/%s/cmdline' % d).read()
                rss = int(open('/proc/%s/statm' % d).read().split()[1]) * 4096
                if 'lean' in cmd and os.readlink('/proc/%s/cwd' % d).startswith(DST) and rss > 5 * 10 ** 9: os.kill(int(d), signal.SIGKILL)
            except Exception: pass
def run(inp, out):
    threading.Thread(target=watchdog, daemon=True).start()
    done = set()
    if os.path.exists(out):
        for l in open(out):
            d = json.loads(l); done.add((d['file'], d['line'], d['new']))
    for m in json.load(open(inp)):
        if (m['file'], m['line'], m['new']) in done: continue
        subprocess.run('rm -rf %s; cp -a %s %s' % (DST, SRC, DST), shell=True)
        p = os.path.join(DST, m['file']); ls = open(p).read().split('\n')
        assert ls[m['line']] == m['old']
        ls[m['line']] = m['new']; open(p, 'w').write('\n'.join(ls))
        t0 = time.time()
        pr = subprocess.Popen('exec timeout 1800 lake build', shell=True, cwd=DST, stdout=subprocess.PIPE, stderr=subprocess.STDOUT, text=True, preexec_fn=os.setsid,
                              env=dict(os.environ, LEAN_NUM_THREADS='2'))
        failed, seen = [], ''
        for l in pr.stdout:
            mm = re.match(r'error: (Verif/\S+\.lean):(\d+):\d+', l)
            if mm: failed.append(os.path.basename(mm.group(1))[:-5] + ':' + enclosing(os.path.join(DST, mm.group(1)), int(mm.group(2))))
            mm = re.match(r'✖ \[\S+\] (?:Building|Running) (\S+)', l)
            if mm: seen = mm.group(1)
            if failed: break
        if failed:
            time.sleep(2); os.killpg(pr.pid, signal.SIGKILL)
        pr.wait()
        surv = pr.returncode == 0 and not failed
        built = bool(failed) and failed[0].split(':')[0] != os.path.basename(m['file'])[:-5]
        rec = dict(m, failed=failed, module=seen, survived=surv, illformed=bool(failed) and not built and failed[0].split(':')[1] == m['def'], secs=round(time.time() - t0))
        open(out, 'a').write(json.dumps(rec, ensure_ascii=False) + '\n')
        print('SURVIVED' if surv else ('illformed' if rec['illformed'] else 'killed'), m['def'], m['edit'], m['new'].strip()[:100], failed[:2], seen, rec['secs'], flush=True)
if sys.argv[1] == 'gen': gen(sys.argv[2], int(sys.argv[3]), int(sys.argv[4]))
else: run(sys.argv[2], sys.argv[3])
