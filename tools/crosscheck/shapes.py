"""Writes a Lean file that runs `calcSkel` of the model (rational numbers) on the polygons below.

    python3 shapes.py SEED,SEED,... true|false [NAME ...] > /tmp/a.lean && cd ../../lean && lake env lean /tmp/a.lean

The second argument is internal_only of calc_skel."""
from cdt import *
def q(x): return f"({x.numerator} : ℚ)" if x.denominator==1 else f"(({x.numerator} : ℚ) / {x.denominator})"
def lean(name,rings,ft=0,shrink="true",internal="true"):
    pts,P,tris,nb,co,stars,ni=cdt(rings,ft)
    o=lambda x:"none" if x is None else f"some {x}"
    L=[]
    L.append(f"def {name}C : List (List (Option ℕ)) := ["+", ".join("["+", ".join(o(x) for x in t)+"]" for t in tris)+"]")
    L.append(f"def {name}N : List (List (Option ℕ)) := ["+", ".join("["+", ".join(o(x) for x in t)+"]" for t in nb)+"]")
    L.append(f"def {name}K : List (List Bool) := ["+", ".join("["+", ".join("true" if x else "false" for x in t)+"]" for t in co)+"]")
    L.append(f"def {name}S : List (List (ℕ × Fin 3)) := ["+", ".join("["+", ".join(f"({a}, {b})" for a,b in t)+"]" for t in stars)+"]")
    L.append(f"def {name}P : List (Pt ℚ) := ["+", ".join(f"({q(x)}, {q(y)})" for x,y in pts)+"]")
    far=", ".join(f"({q(x)}, {q(y)})" for x,y in P[len(pts):])
    L.append(f"""def {name}T (pts : List (Pt ℚ)) : Except Err (Dt ℚ) := .ok {{
  nV := {len(pts)}, nT := {len(tris)}, pos := fun v => if v < {len(pts)} then pts.getD v (0, 0) else [{far}].getD (v - {len(pts)}) (0, 0),
  info := fun v => some v, finite := fun v => decide (v < {len(pts)}),
  corner := fun t i => ({name}C.getD t []).getD i none, neighbour := fun t i => ({name}N.getD t []).getD i none,
  constrained := fun t i => ({name}K.getD t []).getD i false, star := fun v => {name}S.getD v [],
  internal := fun t => decide (t < {ni}) }}
#eval IO.println ("{name} " ++ rep (calcSkel 100 id {name}T {name}P {shrink} {internal}))
""")
    return "\n".join(L)
HEAD="""import Verif.Props.CalcSkel
open Grassfire
namespace X
deriving instance Repr for Err
def sp (p : Pt ℚ) : String := "(" ++ toString p.1 ++ "," ++ toString p.2 ++ ")"
def rep (r : Except Fault (ℚ × St ℚ)) : String := match r with
  | .error (.py e) => "ERR " ++ (reprStr e)
  | .error .outside => "OUTSIDE"
  | .error _ => "FAULT"
  | .ok (now, s) => match segments s with
    | .error _ => "SEGERR"
    | .ok l => "ok " ++ toString now ++ " " ++ toString (s.skVertices.length) ++ " " ++ String.intercalate " " (l.map fun x => sp x.1.1 ++ "-" ++ sp x.1.2)
"""
shapes={
 'square':[[(0,0),(2,0),(2,2),(0,2)]],
 'rect':[[(0,0),(4,0),(4,2),(0,2)]],
 'ell':[[(0,0),(4,0),(4,2),(2,2),(2,4),(0,4)]],
 'ell2':[[(0,0),(6,0),(6,2),(2,2),(2,5),(0,5)]],
 'ell3':[[(0,0),(6,0),(6,2),(3,2),(3,5),(0,5)]],
 'tee':[[(0,0),(6,0),(6,2),(4,2),(4,5),(2,5),(2,2),(0,2)]],
 'tee2':[[(0,0),(7,0),(7,2),(4,2),(4,5),(1,5),(1,2),(0,2)]],
 'plus':[[(2,0),(4,0),(4,2),(6,2),(6,4),(4,4),(4,6),(2,6),(2,4),(0,4),(0,2),(2,2)]],
 'uu':[[(0,0),(6,0),(6,5),(4,5),(4,2),(2,2),(2,5),(0,5)]],
 'uu2':[[(0,0),(7,0),(7,5),(4,5),(4,2),(2,2),(2,6),(0,6)]],
 'zed':[[(0,0),(4,0),(4,2),(7,2),(7,4),(2,4),(2,2),(0,2)]],
 'zed2':[[(0,0),(4,0),(4,3),(8,3),(8,5),(2,5),(2,2),(0,2)]],
 'stair':[[(0,0),(3,0),(3,1),(2,1),(2,2),(1,2),(1,3),(0,3)]],
 'stair2':[[(0,0),(6,0),(6,2),(4,2),(4,3),(2,3),(2,5),(0,5)]],
 'collin':[[(0,0),(2,0),(4,0),(4,2),(0,2)]],
 'hole':[[(0,0),(6,0),(6,6),(0,6)],[(2,2),(2,4),(4,4),(4,2)]],
 'hole2':[[(0,0),(8,0),(8,6),(0,6)],[(2,2),(2,4),(5,4),(5,2)]],
 'tri345':[[(0,0),(4,0),(0,3)]],
 'rhomb':[[(0,0),(3,-4),(6,0),(3,4)]],
 'trap':[[(0,0),(10,0),(7,4),(3,4)]],
 'kite':[[(0,0),(12,5),(24,0),(12,-5)]],
 'para':[[(0,0),(5,0),(8,4),(3,4)]],
 'hexa':[[(0,0),(3,-4),(9,-4),(12,0),(9,4),(3,4)]],
 'arrow':[[(0,0),(12,5),(0,10),(4,5)]],
 'slot':[[(0,0),(10,0),(10,6),(6,6),(6,3),(5,3),(5,6),(0,6)]],
 'slot2':[[(0,0),(10,0),(10,6),(6,6),(6,3),(4,3),(4,6),(0,6)]],
 'bump':[[(0,0),(10,0),(10,4),(6,4),(6,5),(4,5),(4,4),(0,4)]],
 'comb':[[(0,0),(10,0),(10,5),(8,5),(8,2),(6,2),(6,5),(4,5),(4,2),(2,2),(2,5),(0,5)]],
}
if __name__=="__main__":
    import sys
    seeds=[int(x) for x in sys.argv[1].split(',')]; internal=sys.argv[2]
    names=sys.argv[3:] or list(shapes)
    print(HEAD)
    for nme in names:
        for sd in seeds:
            try: print(lean(f"{nme}_{sd}_",shapes[nme],sd,"true",internal))
            except Exception as e: print("-- fail",nme,sd,repr(e))
    print("end X")
