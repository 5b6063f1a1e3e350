import Verif.Spec.Annotations
import Mathlib.Data.List.Nodup
import Mathlib.Data.List.Perm.Subperm

/-! C118: the decorator `validate_types`. -/

namespace Verif.Props

open Verif.Spec Verif.UtilsCommon

variable {α β : Type}

/-- C118. The decorator accepts a function whose arguments are all positional (as all functions of the
package that are decorated) exactly when every argument and the result has an annotation; otherwise it
raises `AssertionError`. A decorated function does on every call what the original does. -/
theorem C118_positional {f : PyFunction α β} (hf : PyValid f) (hp : f.others = []) :
    (FullyAnnotated f → ∃ g, validateTypes f = .ok g ∧ ∀ args, g.call args = f.call args) ∧
    (¬ FullyAnnotated f → validateTypes f = .error .assertion) := by
  have hnd : ("return" :: f.positional).Nodup := by
    refine List.nodup_cons.2 ⟨fun h => hf.keyword (List.mem_append_left _ h), ?_⟩
    exact (List.nodup_append.1 hf.names).1
  have hsub : f.annotations ⊆ "return" :: f.positional := by
    intro k hk
    rcases hf.known k hk with h | h
    · rw [hp, List.append_nil] at h
      exact List.mem_cons_of_mem _ h
    · rw [h]; exact List.mem_cons_self
  have key : f.annotations.length = f.positional.length + 1 ↔ FullyAnnotated f := by
    constructor
    · intro hl
      have hperm := (hf.once.subperm hsub).perm_of_length_le (by rw [List.length_cons, hl])
      refine ⟨fun k hk => hperm.mem_iff.2 ?_, hperm.mem_iff.2 List.mem_cons_self⟩
      rw [hp, List.append_nil] at hk
      exact List.mem_cons_of_mem _ hk
    · rintro ⟨h1, h2⟩
      have hsub' : "return" :: f.positional ⊆ f.annotations := by
        intro k hk
        rcases List.mem_cons.1 hk with rfl | hk
        · exact h2
        · exact h1 k (List.mem_append_left _ hk)
      have l1 := (hnd.subperm hsub').length_le
      have l2 := (hf.once.subperm hsub).length_le
      rw [List.length_cons] at l1 l2
      omega
  constructor
  · intro h
    refine ⟨_, ?_, fun _ => rfl⟩
    simp only [validateTypes, pyAssert, if_pos (key.2 h)]
    rfl
  · intro h
    simp only [validateTypes, pyAssert, if_neg (mt key.1 h)]
    rfl

/-- C118, beyond positional arguments: with keyword-only arguments the decorator accepts functions
with missing annotations and rejects functions that have all. -/
theorem C118_keyword_only :
    (∃ f : PyFunction α β → PyFunction α β, ∀ g, PyValid (f g) ∧ ¬ FullyAnnotated (f g) ∧
      (validateTypes (f g)).isOk) ∧
    (∃ f : PyFunction α β → PyFunction α β, ∀ g, PyValid (f g) ∧ FullyAnnotated (f g) ∧
      validateTypes (f g) = .error .assertion) := by
  refine ⟨⟨fun g => ⟨["a"], ["b"], ["b", "return"], g.call⟩, fun g => ⟨⟨?_, ?_, ?_, ?_⟩, ?_, rfl⟩⟩,
    ⟨fun g => ⟨["a"], ["b"], ["a", "b", "return"], g.call⟩, fun g => ⟨⟨?_, ?_, ?_, ?_⟩, ?_, rfl⟩⟩⟩ <;>
  simp [FullyAnnotated]

/-- C118 at work: `get_grids(ranges: np.ndarray, num_grids: int) -> np.ndarray`, and the same without
the annotation of `num_grids`. -/
example (call : ℕ → ℕ) :
    (∃ g, validateTypes ⟨["ranges", "num_grids"], [], ["ranges", "num_grids", "return"], call⟩ = .ok g ∧
      ∀ x, g.call x = call x) ∧
    validateTypes ⟨["ranges", "num_grids"], [], ["ranges", "return"], call⟩ = .error .assertion :=
  ⟨(C118_positional (f := ⟨["ranges", "num_grids"], [], ["ranges", "num_grids", "return"], call⟩)
      ⟨by simp, by simp, by simp, by simp⟩ rfl).1 (by simp [FullyAnnotated]),
    (C118_positional (f := ⟨["ranges", "num_grids"], [], ["ranges", "return"], call⟩)
      ⟨by simp, by simp, by simp, by simp⟩ rfl).2 (by simp [FullyAnnotated])⟩

end Verif.Props
