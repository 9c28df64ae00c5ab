import Verif.Spec.Failed

/-!
# Vocabulary for programs that work on several groups of images

A program first makes some images that all groups use (darks, flats, frames of reference).  Then it makes calls, in any order, each
for one of the groups: the call names images of its group or common ones.
-/

set_option autoImplicit false

namespace Micropol

/-- The state of such a program: one memory, and the images each group can name. -/
structure Groups (ι : Type) where
  heap : Heap
  images : ι → List Nat

variable {ι : Type}

/-- What group `i` sees. -/
def Groups.sees (s : Groups ι) (i : ι) : State := ⟨s.heap, s.images i⟩

/-- A call made for group `c.1`: it is an ordinary call in the one memory of the process.
Models: calls of micropol_image.py:59-1080. -/
noncomputable def Groups.call [DecidableEq ι] (s : Groups ι) (c : ι × Op) : Groups ι where
  heap := (step (s.sees c.1) c.2).heap
  images := Function.update s.images c.1 (step (s.sees c.1) c.2).images

/-- A program: the `common` calls, then the calls for the groups in the given order.
Models: sequences of calls of micropol_image.py:59-1080. -/
noncomputable def runGroups [DecidableEq ι] (common : List Op) (calls : List (ι × Op)) : Groups ι :=
  calls.foldl Groups.call ⟨(runOps common).heap, fun _ => (runOps common).images⟩

/-- `set_default_angles` is a setting of the whole process. -/
def Op.isSetting : Op → Bool
  | .setDefault _ => true
  | _ => false

/-- The calls for group `i` alone, with the settings of the process. -/
def onlyFor [DecidableEq ι] (i : ι) (calls : List (ι × Op)) : List Op :=
  (calls.filter fun c => decide (c.1 = i) || c.2.isSetting).map Prod.snd

/-- The groups do not call methods of the common images (but may use them as darks, flats and other arguments). -/
def ReadOnlyCommon (common : List Op) (calls : List (ι × Op)) : Prop :=
  ∀ c ∈ calls, ∀ i, c.2.source = some i → (runOps common).images.length ≤ i

end Micropol
