"""Like shapes.py, for random polygons (with holes) with horizontal and vertical edges: seeds LO to HI - 1.

    python3 rectilinear.py LO HI true|false > /tmp/f.lean"""
import random,sys
from shapes import *
def polyomino(rnd,n,w,h):
    cells={(rnd.randrange(w),rnd.randrange(h))}
    while len(cells)<n:
        x,y=rnd.choice(sorted(cells)); dx,dy=rnd.choice([(1,0),(-1,0),(0,1),(0,-1)])
        c=(x+dx,y+dy)
        if 0<=c[0]<w and 0<=c[1]<h: cells.add(c)
    return cells
def rings(cells):
    E={}
    for x,y in cells:
        for a,b,nb in [((x,y),(x+1,y),(x,y-1)),((x+1,y),(x+1,y+1),(x+1,y)),((x+1,y+1),(x,y+1),(x,y+1)),((x,y+1),(x,y),(x-1,y))]:
            if nb not in cells:
                if a in E: return None
                E[a]=b
    R=[]
    while E:
        s=next(iter(E)); r=[s]; c=E.pop(s)
        while c!=s: r.append(c); c=E.pop(c)
        k=len(r)
        r=[r[i] for i in range(k) if (r[i][0]-r[i-1][0])*(r[(i+1)%k][1]-r[i][1])-(r[i][1]-r[i-1][1])*(r[(i+1)%k][0]-r[i][0])!=0]
        R.append(r)
    return R
if __name__=="__main__":
    lo,hi,internal=int(sys.argv[1]),int(sys.argv[2]),sys.argv[3]
    print(HEAD)
    for sd in range(lo,hi):
        rnd=random.Random(sd)
        while True:
            w=rnd.randint(2,5); h=rnd.randint(2,5)
            c=polyomino(rnd,rnd.randint(3,w*h),w,h); R=rings(c)
            if R and sum(map(len,R))<=20: break
        if rnd.random()<0.5:
            xs=sorted(rnd.sample(range(12),w+1)); ys=sorted(rnd.sample(range(12),h+1))
            R=[[(xs[x],ys[y]) for x,y in r] for r in R]
        print("--",R)
        print(lean(f"f{sd}_",R,sd%3,"true",internal))
    print("end X")
