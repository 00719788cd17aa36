#!/usr/bin/env python3
"""Runs seeded wrong programs: every entry of a mutant file is applied to a scratch copy of lean/ (outside
/verif), the copy is built, and the declarations with errors are printed as JSON lines.

usage: mutate.py mutants.json out.jsonl
entry: {"id", "file" (below lean/Verif), "def", "old", "new", "edit", "claim"}; "targets": modules to build, default all"""
import json, os, re, shutil, subprocess, sys, time
root = os.path.dirname(os.path.dirname(os.path.abspath(__file__)))
scratch = os.environ.get('SCRATCH', '/tmp/mutscratch')
muts = json.load(open(sys.argv[1]))
outf = sys.argv[2]
done = set()
if os.path.exists(outf):
    done = {json.loads(l)['id'] for l in open(outf)}

def decl(path, line):
    lines = open(path).read().split('\n')
    for i in range(min(line, len(lines)) - 1, -1, -1):
        m = re.match(r'(?:private |protected |noncomputable |@\[.*?\] )*(theorem|lemma|def|instance|example|structure|inductive|abbrev|#eval)\b\s*(\S*)', lines[i])
        if m:
            return ('example@%d' % (i + 1)) if m.group(1) in ('example', 'instance') else m.group(2)
    return '?'

for m in muts:
    if m['id'] in done: continue
    if os.path.exists(scratch): shutil.rmtree(scratch)
    shutil.copytree(os.environ.get('BASE', root + '/lean'), scratch + '/lean', symlinks=True)
    p = scratch + '/lean/Verif/' + m['file']
    s = open(p).read()
    n = s.count(m['old'])
    if n != 1 and not m.get('all'):
        print(m['id'], 'PATTERN FOUND', n, 'TIMES'); continue
    s = s.replace(m['old'], m['new'])
    open(p, 'w').write(s)
    t = time.time()
    try:
        r = subprocess.run(['lake', 'build'] + m.get('targets', []), cwd=scratch + '/lean', capture_output=True, text=True, timeout=1500)
        txt = r.stdout + r.stderr
        ok = r.returncode == 0
    except subprocess.TimeoutExpired as e:
        txt = (e.stdout or b'').decode() + (e.stderr or b'').decode(); ok = False
        txt += '\nTIMEOUT'
    failed = []
    for x in re.finditer(r'error: (Verif/\S+?\.lean):(\d+):\d+', txt):
        f, l = x.group(1), int(x.group(2))
        d = '%s:%s' % (f[6:-5], decl(scratch + '/lean/' + f, l))
        if d not in failed: failed.append(d)
    rec = dict(id=m['id'], definition=m['def'], edit=m['edit'], claim=m['claim'], survived=ok, failed=failed, secs=round(time.time() - t))
    open(outf, 'a').write(json.dumps(rec, ensure_ascii=False) + '\n')
    print(m['id'], 'SURVIVED' if ok else 'killed', failed[:6], rec['secs'], flush=True)
