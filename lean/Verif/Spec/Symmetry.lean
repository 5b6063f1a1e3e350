import Verif.Spec.Inputs

/-! Vocabulary of C83. -/

namespace Verif.Spec

open Verif.Covariance

/-- Apply a map to every input (to every element of every set). -/
def mapInputs {n d e : ℕ} (f : Point d → Point e) : Inputs n d → Inputs n e
  | .vec x => .vec fun i => f (x i)
  | .set p x => .set p fun i a => f (x i a)

end Verif.Spec
