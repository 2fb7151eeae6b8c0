import Verif.Props.Document
/-! C67: in an encrypted document every string of an object is deciphered, with the numbers of the object. Streams are
returned as stored in the file (they are deciphered when their data are decoded). -/

namespace Pdf
open Spec

mutual
/-- `Decrypted f o o'`: `o'` is `o` with every string, at any depth, replaced as `f` says. -/
inductive Decrypted (f : Bytes → Bytes → Prop) : Obj → Obj → Prop
  | str {s s'} : f s s' → Decrypted f (.str s) (.str s')
  | arr {l l'} : DecryptedSeq f l l' → Decrypted f (.arr l) (.arr l')
  | dict {d d'} : DecryptedItems f d d' → Decrypted f (.dict d) (.dict d')
  | other {o} : (∀ s, o ≠ .str s) → (∀ l, o ≠ .arr l) → (∀ d, o ≠ .dict d) → Decrypted f o o
inductive DecryptedSeq (f : Bytes → Bytes → Prop) : List Obj → List Obj → Prop
  | nil : DecryptedSeq f [] []
  | cons {o o' l l'} : Decrypted f o o' → DecryptedSeq f l l' → DecryptedSeq f (o :: l) (o' :: l')
inductive DecryptedItems (f : Bytes → Bytes → Prop) : List (Key × Obj) → List (Key × Obj) → Prop
  | nil : DecryptedItems f [] []
  | cons {k o o' l l'} : Decrypted f o o' → DecryptedItems f l l' → DecryptedItems f ((k, o) :: l) ((k, o') :: l')
end

mutual
theorem decipherAll_ok (f : Bytes → Except PyErr Bytes) {o o' : Obj} (h : Decrypted (fun s s' => f s = .ok s') o o') :
    decipherAll f o = .ok o' :=
  match h with
  | .str h => by rw [decipherAll, h]
  | .arr h => by rw [decipherAll, decipherList_ok f h]
  | .dict h => by rw [decipherAll, decipherItems_ok f h]
  | .other h1 h2 h3 => by
    cases o' <;> first | rfl | exact absurd rfl (h1 _) | exact absurd rfl (h2 _) | exact absurd rfl (h3 _)
theorem decipherList_ok (f : Bytes → Except PyErr Bytes) {l l' : List Obj} (h : DecryptedSeq (fun s s' => f s = .ok s') l l') :
    decipherList f l = .ok l' :=
  match h with
  | .nil => by rw [decipherList]
  | .cons h1 h2 => by rw [decipherList, decipherAll_ok f h1]; dsimp only; rw [decipherList_ok f h2]
theorem decipherItems_ok (f : Bytes → Except PyErr Bytes) {l l' : List (Key × Obj)} (h : DecryptedItems (fun s s' => f s = .ok s') l l') :
    decipherItems f l = .ok l' :=
  match h with
  | .nil => by rw [decipherItems]
  | .cons h1 h2 => by rw [decipherItems, decipherAll_ok f h1]; dsimp only; rw [decipherItems_ok f h2]
end

/-- C67. An object of an encrypted document, in any spelling and at any place: every string in it is deciphered, with the
object number and the generation number of the cross-reference entry; nothing else is changed. -/
theorem encrypted_object (D : Doc) (hb : 0 < D.bufsiz) (f) (hdec : D.decipher = some f) {s : Cache} (hs : Reach D s) (i : Int) (hi : i ≠ 0)
    (newer older x) (hx : D.xrefs = newer ++ x :: older) (hskip : ∀ y ∈ newer, y i = .error .keyError)
    (pos : Nat) (gen g : Int) (hp : x i = .ok (none, pos, gen)) (pre rest : Bytes) (pts : List (Nat × Tok)) (ts : List Tok) (o o' : Obj)
    (hdata : D.data.drop pos = pre ++ rest) (ht : Text pos pts pre rest)
    (hpts : pts.map Prod.snd = [.int i, .int g, .kw kwObj] ++ ts ++ [.kw kwEndobj]) (hw : Writes fileDialect ts o)
    (ho : Decrypted (fun s s' => f i gen s = .ok s') o o') :
    D.Yields true s i (.ok (o', gen)) := by
  refine newest_wins D hb hs i hi newer older x (none, pos, gen) o' hx (fun y hy => Or.inl (hskip y hy)) hp ?_
  refine ⟨ts.length + 2, fun n hn => ?_⟩
  dsimp only [loadEntry, loadOffset]
  rw [if_neg (by omega), Int.toNat_natCast, plain_object (σ := Cache) ⟨D.fallback, resolve1 (getobj D false n) n⟩ D.bufsiz hb D.data pos i g pre rest pts ts o n {} hdata ht hpts hw hn, hdec]
  dsimp only
  rw [decipherAll_ok _ ho]

/-- C27/C67. A stream of an encrypted (or plain) document looked up by number: dictionary and payload exactly as written;
deciphering strings does not touch it. The document is read with exact lengths (`fallback` off), as encrypted documents are. -/
theorem stream_lookup (D : Doc) (hb : 0 < D.bufsiz) (hf : D.fallback = false) {s : Cache} (hs : Reach D s) (i : Int) (hi : i ≠ 0)
    (newer older x) (hx : D.xrefs = newer ++ x :: older) (hskip : ∀ y ∈ newer, y i = .error .keyError)
    (before after payload : Bytes) (gen g : Int) (d : List (Key × Obj)) (hd : WF (.dict d))
    (hlen : dictGet d nameLength = some (.int payload.length))
    (hdata : D.data = before ++ (printStream i g d payload ++ after)) (hp : x i = .ok (none, before.length, gen)) :
    D.Yields true s i (.ok (.stream d payload, gen)) := by
  refine newest_wins D hb hs i hi newer older x (none, before.length, gen) _ hx (fun y hy => Or.inl (hskip y hy)) hp ?_
  refine ⟨(objToks (.dict d)).length + 4, fun n hn => ?_⟩
  dsimp only [loadEntry, loadOffset]
  rw [if_neg (by omega), Int.toNat_natCast, hdata, stream_roundtrip (σ := Cache) ⟨D.fallback, resolve1 (getobj D false n) n⟩
    (resolve1_direct _ _ _) hf D.bufsiz hb before after payload i g d hd hlen n {} hn]
  cases D.decipher with
  | none => rfl
  | some f => rfl

example : Decrypted (fun s s' => s' = s.reverse) (.dict [(.name [65], .arr [.str [1, 2], .int 3, .ref 1 0])])
    (.dict [(.name [65], .arr [.str [2, 1], .int 3, .ref 1 0])]) :=
  .dict (.cons (.arr (.cons (.str rfl) (.cons (.other (by simp) (by simp) (by simp)) (.cons (.other (by simp) (by simp) (by simp)) .nil)))) .nil)

/-- A document with object 7, encrypted by adding `id + 2 * gen` to each byte. -/
def encDoc : Doc where
  data := [37, 10] ++ (printToks ([.int 7, .int 0, .kw kwObj] ++ objToks (.arr [.str [1, 2], .dict [(.name [65], .str [3])]]) ++ [.kw kwEndobj]) ++ [])
  bufsiz := 16
  fallback := false
  xrefs := [fun i => if i = 7 then .ok (none, 2, 5) else .error .keyError]
  decode := fun _ _ raw => .ok raw
  decipher := some fun i g s => .ok (s.map fun c => c + UInt8.ofNat (i + 2 * g).toNat)

example : (getobj encDoc true 20 7 {}).1.toOption.map (fun r => (objToks r.1, r.2)) =
    some (objToks (.arr [.str [18, 19], .dict [(.name [65], .str [20])]]), 5) := by decide +kernel

end Pdf
