import Verif.Model.Paths
/-! Model of the YAML writer (converters/writers/yaml.py).

The calls on an object writer are `write`, `object` and `array`, all with a key; on an array writer they are `write` and `object`.
`place_object` and `place_array` are made of these. The output is a list of code points: the encoding with `codec` is not modelled. -/

namespace Pdf

mutual
/-- The calls on an object writer (converters/writers/yaml.py:47-87). A scalar is given by the text `f'{value}'`. -/
inductive YObj where
  | nil
  | write (key text : PyStr) (rest : YObj)
  | object (key : PyStr) (body : YObj) (rest : YObj)
  | array (key : PyStr) (body : YArr) (rest : YObj)
/-- The calls on an array writer (converters/writers/yaml.py:95-115). -/
inductive YArr where
  | nil
  | write (text : PyStr) (rest : YArr)
  | object (body : YObj) (rest : YArr)
end

/-- `deep_space*self.levels_deep` (converters/writers/yaml.py:37). -/
def yIndent (level : Nat) : PyStr := List.replicate (2 * level) 0x20

/-- `self.keys.add(key)` (converters/writers/yaml.py:49, 61, 72). -/
def yAddKey (keys : List PyStr) (key : PyStr) : List PyStr := if key ∈ keys then keys else key :: keys

mutual
/-- The text written by the calls on an object writer (converters/writers/yaml.py:41-87): `level` is `levels_deep` after `__enter__`,
`inArr` is `parent_is_array`, and `keys` are the keys used so far. A scalar with a used key is not written, a child with a used key is. The
first key of an object is not indented for `object`, is indented for `array`, and for `write` is indented unless the parent is an array. -/
def yWriteObj (level : Nat) (inArr : Bool) (keys : List PyStr) : YObj → PyStr
  | .nil => []
  | .write key text rest =>
    if key ∈ keys then yWriteObj level inArr keys rest
    else (if (yAddKey keys key).length > 1 then [0x0a] ++ yIndent level else if inArr then [] else yIndent level) ++
      (key ++ [0x3a, 0x20] ++ text) ++ yWriteObj level inArr (yAddKey keys key) rest
  | .object key body rest =>
    (if (yAddKey keys key).length > 1 then [0x0a] ++ yIndent level else []) ++ (key ++ [0x3a, 0x0a]) ++ yWriteObj (level + 1) false [] body ++
      yWriteObj level inArr (yAddKey keys key) rest
  | .array key body rest =>
    (if (yAddKey keys key).length > 1 then [0x0a] ++ yIndent level else yIndent level) ++ (key ++ [0x3a, 0x0a]) ++
      yWriteArr (level + 1) 0 body ++ yWriteObj level inArr (yAddKey keys key) rest
/-- The text written by the calls on an array writer (converters/writers/yaml.py:90-115); `count` is `childrencount`. -/
def yWriteArr (level : Nat) (count : Nat) : YArr → PyStr
  | .nil => []
  | .write text rest =>
    (if count + 1 > 1 then [0x0a] else []) ++ yIndent level ++ ([0x2d, 0x20] ++ text) ++ yWriteArr level (count + 1) rest
  | .object body rest =>
    (if count + 1 > 1 then [0x0a] else []) ++ yIndent level ++ [0x2d, 0x20] ++ yWriteObj (level + 1) true [] body ++
      yWriteArr level (count + 1) rest
end

/-- The file written by `YAMLMaker` (converters/writers/yaml.py:6-10): the outermost writer starts with `levels_deep = -1`. -/
def yFile (calls : YObj) : PyStr := yWriteObj 0 false [] calls

end Pdf
