/-
Model of src/grassfire/transform.py.
-/
import Verif.Py

namespace Grassfire

variable {K : Type} [Field K] [LinearOrder K]

/-- transform.py:1-7 class `Transform`. -/
structure Transform (K : Type) where
  scale : Pt K
  translate : Pt K
  deriving DecidableEq

/-- transform.py:9-12 `forward`. -/
def Transform.forward (t : Transform K) (pt : Pt K) : Except Err (Pt K) := do
  let x ← pdiv (pt.1 - t.translate.1) t.scale.1
  let y ← pdiv (pt.2 - t.translate.2) t.scale.2
  .ok (x, y)

/-- transform.py:14-17 `backward`. -/
def Transform.backward (t : Transform K) (pt : Pt K) : Pt K :=
  (pt.1 * t.scale.1 + t.translate.1, pt.2 * t.scale.2 + t.translate.2)

/-- transform.py:20-31 `get_transform`. -/
def getTransform (box : Pt K × Pt K) : Transform K :=
  let ((sxmin, symin), (sxmax, symax)) := box
  let tdx : K := 2
  let tdy : K := 2
  let scx := (sxmin + sxmax) * (1 / 2)
  let scy := (symin + symax) * (1 / 2)
  let sdx := sxmax - sxmin
  let sdy := symax - symin
  let scale := max (sdx / tdx) (sdy / tdy)
  ⟨(scale, scale), (scx, scy)⟩

/-- transform.py:41-49, loop of `get_box`; only comparisons are used. -/
def boxLoop {α : Type} [LT α] [DecidableLT α] : List (α × α) → α × α → α × α → (α × α) × (α × α)
  | [], ll, ur => (ll, ur)
  | pt :: it, ll, ur =>
    let ll := if pt.1 < ll.1 then (pt.1, ll.2) else ll
    let ll := if pt.2 < ll.2 then (ll.1, pt.2) else ll
    let ur := if pt.1 > ur.1 then (pt.1, ur.2) else ur
    let ur := if pt.2 > ur.2 then (ur.1, pt.2) else ur
    boxLoop it ll ur

/-- transform.py:34-50 `get_box`. -/
def getBox {α : Type} [LT α] [DecidableLT α] (pts : List (α × α)) :
    Except Err ((α × α) × (α × α)) :=
  match pts with
  | [] => .error .assertionError
  | p :: it => .ok (boxLoop it p p)

end Grassfire
