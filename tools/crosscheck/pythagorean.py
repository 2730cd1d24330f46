"""Like shapes.py, for random polygons with edges of rational length: seeds LO to HI - 1.

    python3 pythagorean.py LO HI true|false > /tmp/g.lean"""
import random,sys
from shapes import *
base=[(3,4),(4,3),(5,12),(12,5),(8,6),(6,8),(0,2),(0,4),(0,5),(0,7),(2,0),(4,0),(5,0),(7,0),(8,15)]
V=set()
for a,b in base:
    for s in (1,-1):
        for t in (1,-1): V.add((s*a,t*b))
V=sorted(V); S={}
for v in V:
    for w in V: S.setdefault((v[0]+w[0],v[1]+w[1]),[]).append((v,w))
def simple(P):
    n=len(P)
    if len(set(P))<n: return False
    for i in range(n):
        a,b=P[i],P[(i+1)%n]
        if orient(P[i-1],a,b)==0: return False
        for j in range(n):
            if j!=i and j!=(i+1)%n and onseg(a,b,P[j]): return False
            c,d=P[j],P[(j+1)%n]
            if len({i,(i+1)%n,j,(j+1)%n})==4 and cross(a,b,c,d): return False
    return sum(P[i][0]*P[(i+1)%n][1]-P[i][1]*P[(i+1)%n][0] for i in range(n))>0
lo,hi,internal=int(sys.argv[1]),int(sys.argv[2]),sys.argv[3]
print(HEAD)
for sd in range(lo,hi):
    rnd=random.Random(sd)
    while True:
        n=rnd.randint(4,9)
        vs=[rnd.choice(V) for _ in range(n-2)]
        rnd.random()
        x=-sum(v[0] for v in vs); y=-sum(v[1] for v in vs)
        if (x,y) not in S: continue
        vs+=rnd.choice(S[(x,y)])
        P=[(0,0)]
        for v in vs[:-1]: P.append((P[-1][0]+v[0],P[-1][1]+v[1]))
        if simple(P): break
    print("--",[P])
    print(lean(f"g{sd}_",[P],sd%3,"true",internal))
print("end X")
