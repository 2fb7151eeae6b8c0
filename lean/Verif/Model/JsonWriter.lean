import Verif.Model.Text
/-! Model of the JSON writer (converters/writers/json.py).

A tree of calls is a value: `number`, `string`, `place_object`, `object` and `array` on an object writer take a key, on an array writer
they do not. The output is a list of code points: the encoding with `codec` is not modelled. -/

namespace Pdf

mutual
/-- What one call writes (converters/writers/json.py:49-69, 108-128). `num` is `f'{val}'` of a number, `placed` the text made by
`json.dumps`. -/
inductive JVal where
  | num (text : PyStr)
  | str (val : PyStr)
  | placed (text : PyStr)
  | arr (calls : JArr)
  | obj (calls : JObj)
/-- The calls on an array writer (converters/writers/json.py:108-128). -/
inductive JArr where
  | nil
  | cons (v : JVal) (rest : JArr)
/-- The calls on an object writer, with their keys (converters/writers/json.py:49-69). -/
inductive JObj where
  | nil
  | cons (key : PyStr) (v : JVal) (rest : JObj)
end

/-- `deep_space*self.levels_deep` (converters/writers/json.py:38, 98). -/
def jIndent (level : Nat) : PyStr := List.replicate (2 * level) 0x20

/-- `f'"{val_sant}"'` (converters/writers/json.py:53-54, 112-113): only quotes are escaped. -/
def jString (val : PyStr) : PyStr := [0x22] ++ replaceChar 0x22 [0x5c, 0x22] val ++ [0x22]

/-- The prefix of a call: a comma after the first (converters/writers/json.py:44-47, 103-106). -/
def jPrefix (first : Bool) : PyStr := if first then [0x0a] else [0x2c, 0x0a]

/-- `write_prop` with an empty value: what is written before a child (converters/writers/json.py:41-47, 58, 64). -/
def jKey (level : Nat) (keys : List PyStr) (key : PyStr) : PyStr :=
  if key ∈ keys then [] else jPrefix keys.isEmpty ++ jIndent level ++ [0x22] ++ key ++ [0x22, 0x3a, 0x20]

mutual
/-- The text of a value written by a writer at a level (converters/writers/json.py:20-27, 52-54, 57-69, 80-87). -/
def jWrite (level : Nat) : JVal → PyStr
  | .num t => t
  | .str s => jString s
  | .placed t => t
  | .arr l => [0x5b] ++ jWriteArr (level + 1) true l ++ [0x0a] ++ jIndent level ++ [0x5d]
  | .obj m => [0x7b] ++ jWriteObj (level + 1) [] m ++ [0x0a] ++ jIndent level ++ [0x7d]
/-- The calls on an array writer (converters/writers/json.py:101-128). -/
def jWriteArr (level : Nat) (first : Bool) : JArr → PyStr
  | .nil => []
  | .cons v rest => jPrefix first ++ jIndent level ++ jWrite level v ++ jWriteArr level false rest
/-- The calls on an object writer (converters/writers/json.py:41-69): the text of a key that was used before is not written, nor the scalar
that comes with it, but a child is. -/
def jWriteObj (level : Nat) (keys : List PyStr) : JObj → PyStr
  | .nil => []
  | .cons key v rest =>
    jKey level keys key ++
    (match v with
      | .num t => if key ∈ keys then [] else jWrite level (.num t)
      | .str s => if key ∈ keys then [] else jWrite level (.str s)
      | .placed t => if key ∈ keys then [] else jWrite level (.placed t)
      | .arr l => jWrite level (.arr l)
      | .obj m => jWrite level (.obj m)) ++
    jWriteObj level (if key ∈ keys then keys else key :: keys) rest
end

/-- `JSONMaker` (converters/writers/json.py:7-11): the file written by the calls on the outermost object. -/
def jFile (calls : JObj) : PyStr := jWrite 0 (.obj calls)

end Pdf
