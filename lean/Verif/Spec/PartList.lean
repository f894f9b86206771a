import Verif.Model.PartList
import Verif.Spec.Geometry
import Verif.Spec.Frame
/-! # Specification: parts built from address lists -/
namespace Verif.Spec
open Verif.Xc7 FrameAddress

/-- What the standard promises of `std::sort` and `std::partition`. -/
structure SortContract (alg : Algorithms) : Prop where
  perm : ∀ key l, (alg.sort key l).Perm l
  sorted : ∀ key l, (alg.sort key l).Pairwise fun a b => key a ≤ key b
  partPerm : ∀ l, ((alg.partition l).1 ++ (alg.partition l).2).Perm l
  bottom : ∀ l, ∀ a ∈ (alg.partition l).1, isBottom a = true
  top : ∀ l, ∀ a ∈ (alg.partition l).2, isBottom a = false

/-- The number of frames a column with these addresses has: one more than the largest minor. -/
def IsCount (S : FrameAddress → Prop) (n : Nat) : Prop :=
  (∃ a, S a ∧ (minor a).toNat + 1 = n) ∧ ∀ a, S a → (minor a).toNat < n


end Verif.Spec
