/-! Model of the list utilities (utils/generic.py:79-124) and of the symbol table (parser/PSStackParser/types.py:62-80).

Elements are values of a type with decidable equality (Python's `==`/`hash`). Generators are modelled by the list of the values
they yield. -/

namespace Pdf

/-- The loop of `uniq` with its set `done` (utils/generic.py:80-88). -/
def uniqLoop {α : Type} [DecidableEq α] (done : List α) : List α → List α
  | [] => []
  | obj :: rest => if obj ∈ done then uniqLoop done rest else obj :: uniqLoop (obj :: done) rest

/-- `uniq` (utils/generic.py:80-88). -/
def uniq {α : Type} [DecidableEq α] (objs : List α) : List α := uniqLoop [] objs

/-- `dict((obj, i) for (i, obj) in enumerate(objs))[x]`: the last index of `x` (utils/generic.py:94). `i` is the index of the head
of the list, `r` the index found so far. -/
def lastIndex {α : Type} [DecidableEq α] (x : α) : (i r : Nat) → List α → Nat
  | _, r, [] => r
  | i, r, y :: ys => lastIndex x (i + 1) (if y = x then i else r) ys

/-- `<=` of the pairs `(key(obj), idxs[obj])` (utils/generic.py:95): Python compares tuples lexicographically. -/
def csortLe {α κ : Type} [DecidableEq α] [LE κ] [DecidableLE κ] (objs : List α) (key : α → κ) (a b : α) : Bool :=
  if key a ≤ key b then (if key b ≤ key a then decide (lastIndex a 0 0 objs ≤ lastIndex b 0 0 objs) else true) else false

/-- `csort` (utils/generic.py:92-95). Python's `sorted` is a merge sort that keeps the order of equal elements. -/
def csort {α κ : Type} [DecidableEq α] [LE κ] [DecidableLE κ] (objs : List α) (key : α → κ) : List α :=
  objs.mergeSort (csortLe objs key)

/-- The loop of `pick`; the best object so far comes with its score (utils/generic.py:107-112). -/
def pickLoop {α κ : Type} [LT κ] [DecidableLT κ] (func : α → κ) : (best : Option (κ × α)) → List α → Option (κ × α)
  | best, [] => best
  | none, obj :: rest => pickLoop func (some (func obj, obj)) rest
  | some (maxscore, maxobj), obj :: rest =>
    if maxscore < func obj then pickLoop func (some (func obj, obj)) rest
    else pickLoop func (some (maxscore, maxobj)) rest

/-- `pick` (utils/generic.py:105-112), with `default` for the parameter `maxobj`. -/
def pick {α κ : Type} [LT κ] [DecidableLT κ] (seq : List α) (func : α → κ) (default : Option α := none) : Option α :=
  match pickLoop func none seq with
  | none => default
  | some (_, obj) => some obj

/-- The loop of `choplist`; `r` is the group being filled (utils/generic.py:118-123). -/
def choplistLoop {α : Type} (n : Int) (r : List α) : List α → List (List α)
  | [] => []
  | x :: rest =>
    if ((r ++ [x]).length : Int) = n then (r ++ [x]) :: choplistLoop n [] rest
    else choplistLoop n (r ++ [x]) rest

/-- `choplist` (utils/generic.py:116-124). -/
def choplist {α : Type} (n : Int) (seq : List α) : List (List α) := choplistLoop n [] seq

/-- `PSSymbolTable`: the dictionary from names to objects, and the objects created so far (parser/PSStackParser/types.py:62-80). An
object is its position in `objects`, which stands for its identity; `objects` lists the `name` attributes. Creating an object
appends to the list. -/
structure SymbolTable (ν : Type) where
  dict : List (ν × Nat) := []
  objects : List ν := []

/-- `name in self.dict` and `self.dict[name]` (PSStackParser/types.py:75-76). -/
def SymbolTable.lookup {ν : Type} [DecidableEq ν] (t : SymbolTable ν) (name : ν) : Option Nat :=
  (t.dict.find? (fun e => decide (e.1 = name))).map Prod.snd

/-- `intern` (PSStackParser/types.py:74-80): the identity of the object, and the table afterwards. -/
def SymbolTable.intern {ν : Type} [DecidableEq ν] (t : SymbolTable ν) (name : ν) : Nat × SymbolTable ν :=
  match t.lookup name with
  | some lit => (lit, t)
  | none => (t.objects.length, ⟨(name, t.objects.length) :: t.dict, t.objects ++ [name]⟩)

/-- `lit.name` for an object of the table (PSStackParser/types.py:29-30, 51-53). -/
def SymbolTable.nameOf {ν : Type} (t : SymbolTable ν) (lit : Nat) : Option ν := t.objects[lit]?

/-- A sequence of calls of `intern`, from left to right, with their results (PSStackParser/types.py:74-80). -/
def SymbolTable.internAll {ν : Type} [DecidableEq ν] (t : SymbolTable ν) : List ν → List Nat × SymbolTable ν
  | [] => ([], t)
  | n :: ns => ((t.intern n).1 :: ((t.intern n).2.internAll ns).1, ((t.intern n).2.internAll ns).2)

end Pdf
