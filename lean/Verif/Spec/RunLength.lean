import Verif.Model.Basic
/-! Run-length encoding (PDF Reference 1.4, 3.3.4). -/

namespace Pdf.Spec
open Pdf

/-- A run: literal bytes, or a byte repeated. -/
inductive Run where
  | lit (bs : Bytes)
  | rep (n : Nat) (b : UInt8)

/-- The runs the format can express: 1 to 128 literal bytes, 2 to 128 repetitions. -/
def Run.valid : Run → Prop
  | .lit bs => 1 ≤ bs.length ∧ bs.length ≤ 128
  | .rep n _ => 2 ≤ n ∧ n ≤ 128

/-- The data a run stands for. -/
def Run.data : Run → Bytes
  | .lit bs => bs
  | .rep n b => List.replicate n b

/-- The bytes of a run. -/
def Run.code : Run → Bytes
  | .lit bs => UInt8.ofNat (bs.length - 1) :: bs
  | .rep n b => [UInt8.ofNat (257 - n), b]

end Pdf.Spec
