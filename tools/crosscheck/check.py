"""Compares the output for rectilinear.py LO HI true with what is known about such skeletons.

    python3 check.py /tmp/f.lean /tmp/f.out

Every point of a segment has two nearest edges in the maximum norm, the segments are connected, and there are as many
cycles as holes.  Prints the polygons for which this is not so (nothing, if all is well)."""
import sys,re,ast
from fractions import Fraction as F
def parse(f):
    src=open(f).read().split("\n"); out={}
    R=None
    for l in src:
        if l.startswith("-- [["): R=ast.literal_eval(l[3:])
        m=re.match(r"def (\w+)C :",l)
        if m and R is not None: out[m.group(1)]=R
    return out
def dist(p,a,b):
    lo=[min(a[i],b[i]) for i in (0,1)]; hi=[max(a[i],b[i]) for i in (0,1)]
    return max(max(lo[i]-p[i],0,p[i]-hi[i]) for i in (0,1))
shapes=parse(sys.argv[1])
for l in open(sys.argv[2]):
    w=l.split()
    if len(w)<2 or w[1]!="ok": print(l[:80]); continue
    R=shapes[w[0]]
    E=[(r[i],r[(i+1)%len(r)]) for r in R for i in range(len(r))]
    segs=[]
    for s in w[4:]:
        a,b=s.split(")-(")
        segs.append(tuple(tuple(F(x) for x in y.strip("()").split(",")) for y in (a,b)))
    bad=[]
    for a,b in segs:
        for k in (1,2,5):
            p=tuple(a[i]+(b[i]-a[i])*F(k,7) for i in (0,1))
            d=sorted(dist(p,*e) for e in E)
            if d[0]!=d[1]: bad.append((a,b,d[:3])); break
    nodes={p for s in segs for p in s}
    par={p:p for p in nodes}
    def find(x):
        while par[x]!=x: x=par[x]
        return x
    cyc=0
    for a,b in segs:
        x,y=find(a),find(b)
        if x==y: cyc+=1
        else: par[x]=y
    comp=len({find(p) for p in nodes})
    if bad or comp!=1 or cyc!=len(R)-1: print(w[0],"bad",[(str(a[0]),str(a[1]),str(b[0]),str(b[1])) for a,b,d in bad],"comp",comp,"cyc",cyc,"rings",len(R),R)
