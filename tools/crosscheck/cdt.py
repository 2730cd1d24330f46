"""Constrained Delaunay triangulation of polygons with exact numbers, in the form of the model's `Dt`.

Used by the scripts beside it, which run the Lean model on many polygons.  A test of the translation, not a proof.
`flipties` picks one of the triangulations if four points are on a circle, and the order of the triangles inside."""
from fractions import Fraction as F
import itertools, sys
def orient(a,b,c): return (b[0]-a[0])*(c[1]-a[1])-(b[1]-a[1])*(c[0]-a[0])
def onseg(a,b,p):
    return orient(a,b,p)==0 and min(a[0],b[0])<=p[0]<=max(a[0],b[0]) and min(a[1],b[1])<=p[1]<=max(a[1],b[1])
def sgn(x): return (x>0)-(x<0)
def cross(a,b,c,d):
    return sgn(orient(a,b,c))*sgn(orient(a,b,d))<0 and sgn(orient(c,d,a))*sgn(orient(c,d,b))<0
def incircle(a,b,c,d):
    m=[(p[0]-d[0],p[1]-d[1],(p[0]-d[0])**2+(p[1]-d[1])**2) for p in (a,b,c)]
    return (m[0][0]*(m[1][1]*m[2][2]-m[1][2]*m[2][1])-m[0][1]*(m[1][0]*m[2][2]-m[1][2]*m[2][0])+m[0][2]*(m[1][0]*m[2][1]-m[1][1]*m[2][0]))
def cdt(rings, flipties=0):
    pts=[]; cons=set()
    for r in rings:
        b=len(pts); n=len(r)
        pts+=[(F(x),F(y)) for x,y in r]
        for i in range(n): cons.add(frozenset((b+i,b+(i+1)%n)))
    n=len(pts)
    xs=[p[0] for p in pts]; ys=[p[1] for p in pts]
    cx=(min(xs)+max(xs))/2; cy=(min(ys)+max(ys))/2; w=max(max(xs)-min(xs),max(ys)-min(ys))
    P=pts+[(cx-50*w,cy-50*w),(cx+50*w,cy-50*w),(cx,cy+50*w)]
    N=n+3
    edges=set(cons)
    cand=[]
    for i,j in itertools.combinations(range(N),2):
        e=frozenset((i,j))
        if e in cons: continue
        if any(onseg(P[i],P[j],P[k]) for k in range(N) if k not in (i,j)): continue
        cand.append(((P[i][0]-P[j][0])**2+(P[i][1]-P[j][1])**2,i,j))
    cand.sort()
    for _,i,j in cand:
        if all(not cross(P[i],P[j],*[P[k] for k in e]) for e in edges): edges.add(frozenset((i,j)))
    # triangles: empty triples
    adj={i:set() for i in range(N)}
    for e in edges:
        a,b=e; adj[a].add(b); adj[b].add(a)
    tris=set()
    for a in range(N):
        for b in adj[a]:
            for c in adj[a]&adj[b]:
                if a<b and a<c and orient(P[a],P[b],P[c])>0:
                    if not any(k not in (a,b,c) and orient(P[a],P[b],P[k])>=0 and orient(P[b],P[c],P[k])>=0 and orient(P[c],P[a],P[k])>=0 for k in range(N)):
                        tris.add((a,b,c))
    tris=list(tris)
    # flips
    changed=True; it=0
    while changed and it<10000:
        changed=False
        em={}
        for t in tris:
            for i in range(3): em[(t[(i+1)%3],t[(i+2)%3])]=(t,t[i])
        for (a,b),(t,c) in list(em.items()):
            if frozenset((a,b)) in cons or (b,a) not in em: continue
            u,d=em[(b,a)]
            ic=incircle(P[a],P[b],P[c],P[d])
            if ic>0:
                if orient(P[c],P[a],P[d])>0 and orient(P[d],P[b],P[c])>0:
                    tris.remove(t); tris.remove(u); tris+= [(c,a,d),(d,b,c)]
                    changed=True; it+=1; break
    # random tie flips
    import random
    rnd=random.Random(flipties)
    if flipties:
        for _ in range(50):
            em={}
            for t in tris:
                for i in range(3): em[(t[(i+1)%3],t[(i+2)%3])]=(t,t[i])
            L=[]
            for (a,b),(t,c) in em.items():
                if a<b and frozenset((a,b)) not in cons and (b,a) in em:
                    u,d=em[(b,a)]
                    if incircle(P[a],P[b],P[c],P[d])==0 and orient(P[c],P[a],P[d])>0 and orient(P[d],P[b],P[c])>0: L.append((t,u,a,b,c,d))
            if not L: break
            t,u,a,b,c,d=rnd.choice(L)
            tris.remove(t); tris.remove(u); tris+= [(c,a,d),(d,b,c)]
    def inside(q):
        k=0
        for e in cons:
            a,b=[P[x] for x in e]
            if (a[1]>q[1])!=(b[1]>q[1]):
                x=a[0]+(q[1]-a[1])*(b[0]-a[0])/(b[1]-a[1])
                if x>q[0]: k+=1
        return k%2==1
    def cen(t): return (sum(P[i][0] for i in t)/3,sum(P[i][1] for i in t)/3)
    ins=sorted(t for t in tris if inside(cen(t))); out=sorted(t for t in tris if not inside(cen(t)))
    if flipties: rnd.shuffle(ins)
    tris=ins+out
    em={}
    for k,t in enumerate(tris):
        for i in range(3): em[(t[(i+1)%3],t[(i+2)%3])]=(k,i)
    nb=[]; co=[]
    for t in tris:
        nb.append([em.get((t[(i+2)%3],t[(i+1)%3]),(None,))[0] for i in range(3)])
        co.append([frozenset((t[(i+1)%3],t[(i+2)%3])) in cons for i in range(3)])
    stars=[]
    for v in range(n):
        # star edges: (t, side) ; start at some triangle and go ccw
        T0=[(k,t.index(v)) for k,t in enumerate(tris) if v in t]
        k,i=T0[0]; L=[]
        for _ in range(len(T0)):
            L.append((k,i))
            # next ccw: triangle across the side from v to vertex cw(i)= i+2 : that side is opposite vertex i+1
            k=nb[k][(i+1)%3]; i=tris[k].index(v)
        assert len(set(L))==len(T0)
        stars.append(L)
    return pts,P,tris,nb,co,stars,len(ins)
