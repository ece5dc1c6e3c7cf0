import re,sys
src,dst=sys.argv[1:3]
s=open(src).read()
d=open(dst).read()
# split into blocks starting at column-0 declaration (with preceding doc comment)
lines=s.split("\n")
blocks=[];cur=[]
def is_start(l): return re.match(r'(/--|theorem |def |example|inductive |structure |abbrev |/-!|namespace |end |open |section|variable|import |set_option|omit )',l)
prevdoc=False
for l in lines:
    if is_start(l) and not (cur and cur[0].startswith('/--') and not any(re.match(r'(theorem |def |example|inductive |structure |abbrev )',x) for x in cur)):
        if cur: blocks.append(cur)
        cur=[l]
    else: cur.append(l)
blocks.append(cur)
keep=[];mv=[]
for b in blocks:
    t="\n".join(b)
    m=re.search(r'^(theorem|def|inductive|structure|abbrev) (\S+)',t,re.M)
    if m and not re.match(r'(C\d\d|ex[A-Z])',m.group(2)) and not '--keep' in t: mv.append(t)
    else: keep.append(t)
open(src,'w').write("\n".join(keep))
i=d.rindex("end Octo")
d=d[:i]+"\n".join(mv)+"\n"+d[i:]
d=re.sub(r'\n\n\n+','\n\n',d)
open(dst,'w').write(d)
