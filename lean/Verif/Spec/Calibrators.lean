import Verif.Model.Calibrators
import Verif.Spec.Folder

/-! # Specification of calibrations saved at the same time -/

set_option autoImplicit false

namespace Micropol

section
variable {K : Type} [Field K] {n : Nat}

/-- What program `i` did, in its order. -/
def actionsOf (i : Fin n) (l : List (Fin n × FileOp K)) : List (FileOp K) := (l.filter (fun e => e.1 = i)).map Prod.snd

/-- The actions `l` of programs that save the calibrations `o`, interleaved in any way; each program may have been stopped anywhere. -/
def IsTrace (o : Fin n → CalibOutput K) (l : List (Fin n × FileOp K)) : Prop := ∀ i, actionsOf i l <+: saveOps (o i)

/-- Program `i` has come to its end. -/
def Finished (o : Fin n → CalibOutput K) (l : List (Fin n × FileOp K)) (i : Fin n) : Prop := actionsOf i l = saveOps (o i)

/-- The files that calibration `o` leaves in an empty folder. -/
def ownFiles (o : CalibOutput K) : Listing K := (saveCalibration o ⟨[], none⟩).top

/-- The files that calibration `o` leaves in the subfolder of an empty folder. -/
def ownCovFiles (o : CalibOutput K) : Listing K := (saveCalibration o ⟨[], none⟩).cov.getD []

end

end Micropol
