import Verif.Notation
/-!
# Shared conventions of the model

`Outcome`: what a C++ call can do.  `BMap`: `absl::btree_map`.
-/
namespace Verif

/-- 32-bit word (`uint32_t`, `FrameWord`; `/repo/fpga/xilinx/arch-xc7-frame.h:60`). -/
abbrev Word := BitVec 32

/-- Byte string: `std::string_view` contents and stream contents. -/
abbrev Bytes := List UInt8

/-- Result of running a piece of C++ code.
* `ok a`  : returned normally with value `a`;
* `err`   : returned a non-OK `absl::Status` (the message text is not modelled);
* `abort` : the program was terminated by a failed `CHECK`, `.at()` on a missing key, or
            `value()` on a non-OK `StatusOr` (`/repo` is built with `-fno-exceptions`, `.bazelrc`);
* `ub`    : undefined behaviour (out-of-range access, invalid shift, ...). -/
inductive Outcome (α : Type) where
  | ok (a : α)
  | err
  | abort
  | ub
deriving Repr, DecidableEq

namespace Outcome
variable {α β γ : Type}

/-- Sequencing: anything but `ok` stops the computation. -/
@[simp] def bind : Outcome α → (α → Outcome β) → Outcome β
  | ok a, f => f a
  | err, _ => err
  | abort, _ => abort
  | ub, _ => ub

instance : Monad Outcome where
  pure := ok
  bind := bind

@[simp] theorem pure_eq (a : α) : (pure a : Outcome α) = ok a := rfl
@[simp] theorem bind_ok (a : α) (f : α → Outcome β) : (ok a >>= f) = f a := rfl
@[simp] theorem bind_err (f : α → Outcome β) : ((err : Outcome α) >>= f) = err := rfl
@[simp] theorem bind_abort (f : α → Outcome β) : ((abort : Outcome α) >>= f) = abort := rfl
@[simp] theorem bind_ub (f : α → Outcome β) : ((ub : Outcome α) >>= f) = ub := rfl

theorem bind_assoc' (x : Outcome α) (f : α → Outcome β) (g : β → Outcome γ) :
    (x >>= f) >>= g = x >>= fun a => f a >>= g := by cases x <;> rfl

instance : LawfulMonad Outcome := LawfulMonad.mk'
  (id_map := by intro α x; cases x <;> rfl)
  (pure_bind := by intros; rfl)
  (bind_assoc := by intro α β γ x f g; cases x <;> rfl)

/-- `bind` returns a value only when both parts do. -/
theorem bind_eq_ok {x : Outcome α} {f : α → Outcome β} {b : β} :
    (x >>= f) = ok b ↔ ∃ a, x = ok a ∧ f a = ok b := by
  cases x <;> simp

end Outcome

/-! ## `absl::btree_map`

A list of pairs in strictly increasing key order; an iterator is the suffix it points at. -/

/-- Contents of an `absl::btree_map<Nat-like key, β>`; the ordering invariant is `BMap.Sorted`. -/
abbrev BMap (β : Type) := List (Nat × β)

namespace BMap
variable {β : Type}

/-- Ordering invariant of a btree map. -/
def Sorted (m : BMap β) : Prop := m.Pairwise (fun a b => a.1 < b.1)

/-- `map.find(k)` as an iterator: the suffix starting at key `k`, or `[]` for `end()`. -/
def find (m : BMap β) (k : Nat) : BMap β :=
  match m with
  | [] => []
  | (k', v) :: rest => if k' = k then (k', v) :: rest else find rest k

/-- `map.emplace(k, v)` / `map.insert({k, v})`: keeps the existing value when the key is present. -/
def emplace (m : BMap β) (k : Nat) (v : β) : BMap β :=
  match m with
  | [] => [(k, v)]
  | (k', v') :: rest =>
    if k' < k then (k', v') :: emplace rest k v
    else if k' = k then (k', v') :: rest
    else (k, v) :: (k', v') :: rest

/-- The value stored under a key, if any (specification view of `find`). -/
def get? (m : BMap β) (k : Nat) : Option β := (m.find (β := β) k).head?.map (·.2)

end BMap
end Verif
