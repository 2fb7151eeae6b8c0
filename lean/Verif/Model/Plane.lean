import Verif.Model.Basic
import Mathlib.Data.Rat.Floor
/-! Model of `drange` and `Plane` (utils/generic.py:98-102, 146-232). Coordinates are rationals: floating-point rounding is not
modelled. The corners of an object do not change while it is in a plane. -/

namespace Pdf

/-- A bounding box `(x0, y0, x1, y1)` (utils/generic.py:160, 176). -/
structure PBox where
  x0 : ℚ
  y0 : ℚ
  x1 : ℚ
  y1 : ℚ
deriving DecidableEq

/-- Python's `int` of a number: truncation towards zero (used at utils/generic.py:102). -/
def pyTrunc (q : ℚ) : Int := if 0 ≤ q then ⌊q⌋ else ⌈q⌉

/-- `range(a, b)` (used at utils/generic.py:102). -/
def pyRange (a b : Int) : List Int := (List.range (b - a).toNat).map fun (i : Nat) => a + (i : Int)

/-- `drange` (utils/generic.py:99-102), for a positive integer `d`. -/
def drange (v0 v1 : ℚ) (d : Nat) : Except PyErr (List Int) :=
  if v0 < v1 then .ok (pyRange (pyTrunc v0 / (d : Int)) (pyTrunc (v1 + d) / (d : Int))) else .error .assertion

/-- `Plane` (utils/generic.py:153-161). `_grid` maps every cell to its list of objects; a cell without entry has the empty list,
which no method distinguishes from a missing entry. `_objs` is a set: its list has no repetition. -/
structure Plane (α : Type) where
  seq : List α := []
  objs : List α := []
  grid : Int × Int → List α := fun _ => []
  gridsize : Nat := 50
  bbox : PBox

variable {α : Type} [DecidableEq α]

/-- `_getrange` (utils/generic.py:175-186): all the cells it yields. `drange(x0, x1, _)` is called in the loop over `y`, which
fails at its first turn, before anything is yielded. -/
def Plane.getrange (p : Plane α) (b : PBox) : Except PyErr (List (Int × Int)) :=
  if b.x1 ≤ p.bbox.x0 ∨ p.bbox.x1 ≤ b.x0 ∨ b.y1 ≤ p.bbox.y0 ∨ p.bbox.y1 ≤ b.y0 then .ok []
  else
    match drange (max p.bbox.y0 b.y0) (min p.bbox.y1 b.y1) p.gridsize with
    | .error e => .error e
    | .ok ys =>
      match drange (max p.bbox.x0 b.x0) (min p.bbox.x1 b.x1) p.gridsize with
      | .error e => if ys = [] then .ok [] else .error e
      | .ok xs => .ok (ys.flatMap fun y => xs.map fun x => (x, y))

/-- `r.append(obj)` for the cells of `ks` in turn (utils/generic.py:196-202). -/
def gridAdd (g : Int × Int → List α) (obj : α) : List (Int × Int) → Int × Int → List α
  | [] => g
  | k :: ks => gridAdd (fun c => if c = k then g c ++ [obj] else g c) obj ks

/-- `self._grid[k].remove(obj)` for the cells of `ks` in turn; a missing object is ignored (utils/generic.py:209-213). -/
def gridRemove (g : Int × Int → List α) (obj : α) : List (Int × Int) → Int × Int → List α
  | [] => g
  | k :: ks => gridRemove (fun c => if c = k then (g c).erase obj else g c) obj ks

/-- `add` (utils/generic.py:195-205): the plane afterwards, and the exception if one is raised. -/
def Plane.add (box : α → PBox) (p : Plane α) (obj : α) : Plane α × Option PyErr :=
  match p.getrange (box obj) with
  | .error e => (p, some e)
  | .ok ks =>
    ({ p with
        grid := gridAdd p.grid obj ks
        seq := p.seq ++ [obj]
        objs := if obj ∈ p.objs then p.objs else obj :: p.objs }, none)

/-- `remove` (utils/generic.py:208-215). -/
def Plane.remove (box : α → PBox) (p : Plane α) (obj : α) : Plane α × Option PyErr :=
  match p.getrange (box obj) with
  | .error e => (p, some e)
  | .ok ks =>
    if obj ∈ p.objs then ({ p with grid := gridRemove p.grid obj ks, objs := p.objs.erase obj }, none)
    else ({ p with grid := gridRemove p.grid obj ks }, some .keyError)

/-- The inner loop of `find` on the objects of the cells; `done` is its set (utils/generic.py:224-231). -/
def planeFindLoop (box : α → PBox) (q : PBox) (done : List α) : List α → List α
  | [] => []
  | obj :: rest =>
    if obj ∈ done then planeFindLoop box q done rest
    else if (box obj).x1 ≤ q.x0 ∨ q.x1 ≤ (box obj).x0 ∨ (box obj).y1 ≤ q.y0 ∨ q.y1 ≤ (box obj).y0 then
      planeFindLoop box q (obj :: done) rest
    else obj :: planeFindLoop box q (obj :: done) rest

/-- `find` (utils/generic.py:218-232): all the objects it yields. -/
def Plane.find (box : α → PBox) (p : Plane α) (q : PBox) : Except PyErr (List α) :=
  match p.getrange q with
  | .error e => .error e
  | .ok ks => .ok (planeFindLoop box q [] (ks.flatMap p.grid))

/-- `__iter__` (utils/generic.py:166-167). -/
def Plane.iter (p : Plane α) : List α := p.seq.filter fun obj => decide (obj ∈ p.objs)

/-- `__contains__` (utils/generic.py:172-173). -/
def Plane.contains (p : Plane α) (obj : α) : Bool := decide (obj ∈ p.objs)

/-- `__len__` (utils/generic.py:169-170). -/
def Plane.len (p : Plane α) : Nat := p.objs.length

/-- The calls that change a plane (utils/generic.py:195, 208). -/
inductive PlaneOp (α : Type) where
  | add (obj : α)
  | remove (obj : α)
deriving DecidableEq

/-- One call of `add` or `remove` (utils/generic.py:195-215); the caller catches its exception. -/
def Plane.step (box : α → PBox) (p : Plane α) : PlaneOp α → Plane α
  | .add obj => (p.add box obj).1
  | .remove obj => (p.remove box obj).1

/-- `Plane(bbox, gridsize)` followed by calls (utils/generic.py:155-215). -/
def Plane.history (box : α → PBox) (bbox : PBox) (gridsize : Nat) (ops : List (PlaneOp α)) : Plane α :=
  ops.foldl (Plane.step box) { gridsize := gridsize, bbox := bbox }

end Pdf
