#!/usr/bin/env python3
"""flat.py LEANROOT OUT [keep...]: one file with the definitions of all modules, without theorems and examples."""
import os,re,sys
root=sys.argv[1]+'/'; out=sys.argv[2]; keep=set(sys.argv[3:])
order=[]; seen=set(); ext=[]
def go(m):
    if m in seen: return
    seen.add(m)
    for i in re.findall(r'^import (\S+)',open(root+m.replace('.','/')+'.lean').read(),re.M):
        if i.startswith('Verif'): go(i)
        elif i not in ext: ext.append(i)
    order.append(m)
for m in os.environ.get('ROOTS','Verif').split(): go(m)
res=[]
def strip_comments(s):
    return s
for m in order:
    if m=='Verif': continue
    s=open(root+m.replace('.','/')+'.lean').read()
    lines=s.split('\n')
    # chunks
    chunks=[]; cur=[]; i=0; incom=0; doc=False
    def flush():
        global cur
        if cur: chunks.append('\n'.join(cur)); cur=[]
    pending=False
    for ln in lines:
        if incom:
            cur.append(ln); incom+=ln.count('/-')-ln.count('-/'); continue
        st=re.match(r'(/--|/-|@\[|set_option|omit|open|theorem|lemma|example|def|abbrev|instance|structure|inductive|class|private|protected|noncomputable|namespace|section|end\b|variable|import|attribute|notation|infix|scoped|local|deriving|mutual|#|unsafe|partial|universe|macro|syntax|elab)',ln)
        if st:
            k=st.group(1)
            # continue previous chunk if it is only a doc comment / attribute / "… in" prefix
            prev='\n'.join(cur).rstrip()
            prefix = cur and prev.strip() and re.fullmatch(r'\s*(/--(?:(?!-/)[\s\S])*-/\s*|@\[[^\n]*?\]\s*|(set_option|omit|open)[^\n]* in\s*)+',prev+'\n')
            if not prefix: flush()
        cur.append(ln)
        incom+=ln.count('/-')-ln.count('-/')
    flush()
    o=[]
    for c in chunks:
        d=re.sub(r'^\s*(/--[\s\S]*?-/\s*|@\[[^\n]*?\]\s*|(set_option|omit|open)[^\n]* in\s*)*','',c)
        w=re.match(r'(?:private |protected |noncomputable |nonrec )*(theorem|lemma|example|import|#\w+)\b\s*(\S*)',d)
        if w and w.group(2) not in keep: continue
        if re.match(r'attribute',d): continue
        if d.strip()=='' and c.strip(): continue
        o.append(c)
    res.append('-- '+m+'\nsection\n'+'\n'.join(o)+'\nend\n')
open(out,'w').write('\n'.join('import '+e for e in ext)+'\nset_option debug.byAsSorry true\nset_option warn.sorry false\nset_option linter.all false\nset_option linter.unusedTactic false\nset_option linter.unreachableTactic false\n'+'\n'.join(res))
