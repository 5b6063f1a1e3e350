import Verif.Model.UtilsCommon

/-! Vocabulary of C118. -/

namespace Verif.Spec

open Verif.UtilsCommon

/-- What Python guarantees of a function: argument names are different and not the keyword `return`;
annotations are for arguments or for the result, each at most once. -/
structure PyValid {α β : Type} (f : PyFunction α β) : Prop where
  names : (f.positional ++ f.others).Nodup
  keyword : "return" ∉ f.positional ++ f.others
  once : f.annotations.Nodup
  known : ∀ k ∈ f.annotations, k ∈ f.positional ++ f.others ∨ k = "return"

/-- All arguments and the result have annotations. -/
def FullyAnnotated {α β : Type} (f : PyFunction α β) : Prop :=
  (∀ k ∈ f.positional ++ f.others, k ∈ f.annotations) ∧ "return" ∈ f.annotations

end Verif.Spec
