import Verif.Model.Basic
/-! Model of `rldecode` (pdfmajor/parser/PDFStream/util.py). -/

namespace Pdf

/-- The loop of `rldecode` (parser/PDFStream/util.py:122-137). The index `i` is represented by the
remaining data; reading beyond the end of `data` raises `IndexError`. -/
def rlLoop (data out : Bytes) : Except PyErr Bytes :=
  match data with
  | [] => .ok out
  | length :: rest =>
    if length = 128 then .ok out
    else if length < 128 then
      if rest.length < length.toNat + 1 then .error .indexError
      else rlLoop (rest.drop (length.toNat + 1)) (out ++ rest.take (length.toNat + 1))
    else
      match rest with
      | [] => .error .indexError
      | c :: rest' => rlLoop rest' (out ++ List.replicate (257 - length.toNat) c)
termination_by data.length
decreasing_by all_goals simp_all <;> omega

/-- `rldecode` (parser/PDFStream/util.py:108-137). -/
def rldecode (data : Bytes) : Except PyErr Bytes := rlLoop data []

end Pdf
