import Verif.Model.Folder

/-!
# Model of several programs that save calibrations into one folder at the same time

Simplification: writing one file is one action (two programs that write the same file at the same moment are not modelled; with one
program that writes and one that reads see `Model/LiveFolder`).
-/

set_option autoImplicit false

namespace Micropol

section
variable {K : Type} [Field K]

/-- The folder after the actions `l` of programs numbered `0` to `n - 1`, in the order in which they happened.
Models: processing/demodulation.py:721-754, run by several programs. -/
def traceRun {n : Nat} (f : CalibFolder K) (l : List (Fin n × FileOp K)) : CalibFolder K := (l.map Prod.snd).foldl FileOp.run f

end

end Micropol
