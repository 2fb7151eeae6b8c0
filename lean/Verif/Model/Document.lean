import Verif.Model.FileParser
/-! Model of object lookup in `PDFDocument` (parser/PDFDocument/__init__.py), `PDFObjRef.resolve` and `resolve1`. -/

namespace Pdf

/-- What `get_pos` returns (PDFXRef.py:29-33): object stream number or `None`, offset or index, generation number. -/
abbrev XPos := Option Int × Int × Int

/-- The parts of a document that object lookup uses. `xrefs` are the `get_pos` methods of the cross-reference sections in
the order of the list `xrefs`. `decode` is `PDFStream.get_data` (it gets `objid` and `genno`, which deciphering uses); its
decoding parameters are taken to be direct objects. `decipher` is the method that deciphers strings (PDFDocument/__init__.py:58-105). -/
structure Doc where
  data : Bytes
  bufsiz : Nat
  fallback : Bool
  xrefs : List (Int → Except PyErr XPos)
  decode : Option (Int × Int) → List (Key × Obj) → Bytes → Except PyErr Bytes
  decipher : Option (Int → Int → Bytes → Except PyErr Bytes)

/-- `_cached_objs` and `_parsed_objs` (PDFDocument/__init__.py:67-68). The key of a parsed object stream is the `objid` of
the stream. -/
structure Cache where
  objs : List (Int × (Obj × Int)) := []
  parsed : List (Option Int × (List Obj × Obj)) := []

mutual
/-- `decipher_all` (PDFStream/util.py:36-46): strings are deciphered, everywhere inside lists and dictionaries; streams are
left alone. -/
def decipherAll (f : Bytes → Except PyErr Bytes) : Obj → Except PyErr Obj
  | .str s => match f s with
    | .ok s => .ok (.str s)
    | .error e => .error e
  | .arr l => match decipherList f l with
    | .ok l => .ok (.arr l)
    | .error e => .error e
  | .dict d => match decipherItems f d with
    | .ok d => .ok (.dict d)
    | .error e => .error e
  | o => .ok o
/-- The elements of a list, in `decipher_all` (PDFStream/util.py:41-42). -/
def decipherList (f : Bytes → Except PyErr Bytes) : List Obj → Except PyErr (List Obj)
  | [] => .ok []
  | o :: os => match decipherAll f o with
    | .error e => .error e
    | .ok o => match decipherList f os with
      | .ok os => .ok (o :: os)
      | .error e => .error e
/-- The entries of a dictionary, in `decipher_all` (PDFStream/util.py:43-45). -/
def decipherItems (f : Bytes → Except PyErr Bytes) : List (Key × Obj) → Except PyErr (List (Key × Obj))
  | [] => .ok []
  | (k, o) :: os => match decipherAll f o with
    | .error e => .error e
    | .ok o => match decipherItems f os with
      | .ok os => .ok ((k, o) :: os)
      | .error e => .error e
end

/-- The `N` entry of an object stream (PDFDocument/__init__.py:146). -/
def nameN : Key := .name [78]

/-- `_get_objects` (PDFDocument/__init__.py:141-160): all objects of an object stream and its entry `N` (default 0). -/
def getObjects (D : Doc) (tag : Option (Int × Int)) (d : List (Key × Obj)) (raw : Bytes) : Except PyErr (List Obj × Obj) :=
  match D.decode tag d raw with
  | .error e => .error e
  | .ok data =>
    match parseObjects streamHooks D.bufsiz data (data.length + 1) with
    | (objs, some .psEOF) => .ok (objs, (dictGet d nameN).getD (.int 0))
    | (_, some e) => .error e
    | (_, none) => .error .recursion

/-- `objs[n*2+index]` with `IndexError` turned into `PDFSyntaxError` (PDFDocument/__init__.py:134-138). Negative indices
count from the end, as in Python. -/
def objAt (objs : List Obj) (n : Obj) (index : Int) : Except PyErr Obj :=
  let at' (n : Int) : Except PyErr Obj :=
    let i := n * 2 + index
    let j := if i < 0 then i + objs.length else i
    if j < 0 then .error .pdfSyntaxError
    else match objs[j.toNat]? with
      | some o => .ok o
      | none => .error .pdfSyntaxError
  match n with
  | .int n => at' n
  | .bool b => at' (if b then 1 else 0)
  | _ => .error .typeError

/-- `_getobj_objstm` (PDFDocument/__init__.py:127-139). -/
def getobjObjstm (D : Doc) (caching : Bool) (tag : Option (Int × Int)) (d : List (Key × Obj)) (raw : Bytes) (index : Int) (s : Cache) :
    Except PyErr Obj × Cache :=
  match dictGet s.parsed (tag.map Prod.fst) with
  | some (objs, n) => (objAt objs n index, s)
  | none =>
    match getObjects D tag d raw with
    | .error e => (.error e, s)
    | .ok (objs, n) =>
      (objAt objs n index, if caching then { s with parsed := dictSet s.parsed (tag.map Prod.fst) (objs, n) } else s)

/-- `getobj` as seen by its callers: the object and its generation number (PDFDocument/__init__.py:189-221). -/
abbrev Get := Int → Cache → Except PyErr (Obj × Int) × Cache

/-- `resolve1` (PDFStream/util.py:9-17) with `PDFObjRef.resolve` (PDFObjRef.py:26-30): a missing object is `None`. Together with
the object comes the `objid`/`genno` that `set_objid` (PDFStream/__init__.py:32-35) has given it if it is a stream. The `fuel`
bounds the length of the chain of references; Python loops forever on a cycle. -/
def resolveTag (get : Get) : (fuel : Nat) → Obj → Option (Int × Int) → Cache → Except PyErr (Obj × Option (Int × Int)) × Cache
  | 0, o, tag, s =>
    match o with
    | .ref _ _ => (.error .recursion, s)
    | o => (.ok (o, tag), s)
  | fuel + 1, o, tag, s =>
    match o with
    | .ref i _ =>
      match get i s with
      | (.ok (o, gen), s) => resolveTag get fuel o (some (i, gen)) s
      | (.error e, s) => if e = .pdfObjectNotFound then (.ok (.null, none), s) else (.error e, s)
    | o => (.ok (o, tag), s)

/-- `resolve1` (PDFStream/util.py:9-17). -/
def resolve1 (get : Get) (fuel : Nat) (o : Obj) (s : Cache) : Except PyErr Obj × Cache :=
  match resolveTag get fuel o none s with
  | (.ok (o, _), s) => (.ok o, s)
  | (.error e, s) => (.error e, s)

/-- `PDFStream.validated_stream` (PDFStream/__init__.py:13-20), lenient: anything else is an empty stream. -/
def asStream (o : Obj) (tag : Option (Int × Int)) : Option (Int × Int) × List (Key × Obj) × Bytes :=
  match o with
  | .stream d raw => (tag, d, raw)
  | _ => (none, [], [])

/-- The object in object stream `strmid` (PDFDocument/__init__.py:203-205). -/
def loadObjstm (D : Doc) (caching : Bool) (get : Get) (fuel : Nat) (strmid index : Int) (s : Cache) : Except PyErr Obj × Cache :=
  match get strmid s with
  | (.error e, s) => (.error e, s)
  | (.ok (o, gen), s) =>
    match resolveTag get fuel o (some (strmid, gen)) s with
    | (.error e, s) => (.error e, s)
    | (.ok (o, tag), s) => getobjObjstm D caching (asStream o tag).1 (asStream o tag).2.1 (asStream o tag).2.2 index s

/-- The object at offset `pos` (PDFDocument/__init__.py:206-209). A negative offset cannot be sought. -/
def loadOffset (D : Doc) (get : Get) (fuel : Nat) (pos gen objid : Int) (s : Cache) : Except PyErr Obj × Cache :=
  if pos < 0 then (.error .valueError, s)
  else match getobjParse ⟨D.fallback, resolve1 get fuel⟩ D.bufsiz fuel D.data pos.toNat objid s with
    | (.error e, s) => (.error e, s)
    | (.ok o, s) =>
      match D.decipher with
      | none => (.ok o, s)
      | some f => (decipherAll (f objid gen) o, s)

/-- The object at the place given by an entry (PDFDocument/__init__.py:203-209). -/
def loadEntry (D : Doc) (caching : Bool) (get : Get) (fuel : Nat) (objid : Int) (p : XPos) (s : Cache) : Except PyErr Obj × Cache :=
  match p with
  | (some strmid, index, _) => loadObjstm D caching get fuel strmid index s
  | (none, index, gen) => loadOffset D get fuel index gen objid s

/-- The loop over the sections (PDFDocument/__init__.py:197-217): a section without the object (`KeyError`) or where it cannot
be read (`PSEOF`, `PDFSyntaxError`) is skipped. -/
def searchXrefs (D : Doc) (caching : Bool) (get : Get) (fuel : Nat) (objid : Int) :
    List (Int → Except PyErr XPos) → Cache → Except PyErr (Obj × Int) × Cache
  | [], s => (.error .pdfObjectNotFound, s)
  | x :: xs, s =>
    match x objid with
    | .error e => if e = .keyError then searchXrefs D caching get fuel objid xs s else (.error e, s)
    | .ok p =>
      match loadEntry D caching get fuel objid p s with
      | (.ok o, s) => (.ok (o, p.2.2), s)
      | (.error e, s) => if e = .psEOF ∨ e = .pdfSyntaxError then searchXrefs D caching get fuel objid xs s else (.error e, s)

/-- `getobj` (PDFDocument/__init__.py:188-221). The `fuel` bounds the depth of nested lookups, the length of chains of
references and the number of rounds of the parser; `recursion` means that it was exhausted. -/
def getobj (D : Doc) (caching : Bool) : (fuel : Nat) → Get
  | 0, _, s => (.error .recursion, s)
  | fuel + 1, objid, s =>
    if objid = 0 then (.error .assertion, s)
    else if D.xrefs.isEmpty then (.error .other, s)
    else match dictGet s.objs objid with
      | some r => (.ok r, s)
      | none =>
        match searchXrefs D caching (getobj D caching fuel) fuel objid D.xrefs s with
        | (.ok r, s) => (.ok r, if caching then { s with objs := dictSet s.objs objid r } else s)
        | (.error e, s) => (.error e, s)

end Pdf
