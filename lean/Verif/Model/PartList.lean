import Verif.Model.Part
/-! # Parts built from address lists: the iterator constructors of `/repo/fpga/xilinx/arch-xc7-part.h`

`std::sort` and `std::partition` do not fix the order of equivalent elements, so they are arguments; theorems
assume only the contracts of the standard (`Spec.SortContract`). -/
namespace Verif.Xc7
open FrameAddress

/-- The algorithms of the standard library: sorting by a key; partitioning into bottom and top addresses. -/
structure Algorithms where
  sort : (FrameAddress → Nat) → List FrameAddress → List FrameAddress
  partition : List FrameAddress → List FrameAddress × List FrameAddress

/-- The loops `for (first = …; first != last;) { last' = upper_bound(first, last, key); …; first = last'; }` —
arch-xc7-part.h:117-127, 174-184, 238-247: the groups visited.  On a range sorted by the key `upper_bound` is
the first element with a larger key. -/
def groups (key : FrameAddress → Nat) : List FrameAddress → List (Nat × List FrameAddress)
  | [] => []
  | a :: rest =>
    (key a, a :: rest.takeWhile fun b => decide (key b ≤ key a)) ::
      groups key (rest.dropWhile fun b => decide (key b ≤ key a))
termination_by l => l.length
decreasing_by
  have := (List.dropWhile_sublist (l := rest) fun b => decide (key b ≤ key a)).length_le
  simp only [List.length_cons]; omega

/-- Emplace one entry per group, in order. -/
def emplaceGroups {β : Type} (build : List FrameAddress → Outcome β) (gs : List (Nat × List FrameAddress)) : Outcome (BMap β) :=
  gs.foldlM (fun m g => (build g.2) >>= fun v => .ok (m.emplace g.1 v)) []

/-- The `assert(std::all_of(…))` of the constructors: the elements agree with the first on `same`. -/
def assertAll (same : FrameAddress → FrameAddress → Bool) (l : List FrameAddress) : Outcome Unit :=
  match l with
  | [] => .ok ()
  | a :: _ => if l.all (same a) then .ok () else .abort

/-- `ConfigurationColumn(first, last)` — arch-xc7-part.h:54-68; dereferencing the maximum of an empty range is
undefined. -/
def columnOfList (l : List FrameAddress) : Outcome Column :=
  (assertAll (fun a b => blockType b == blockType a && isBottom b == isBottom a && row b == row a && column b == column a) l) >>= fun _ =>
  match l with
  | [] => .ub
  | a :: rest => .ok ⟨(rest.foldl (fun m b => if (minor m).toNat < (minor b).toNat then b else m) a |> fun b => (minor b).toNat) + 1⟩

/-- `ConfigurationBus(first, last)` — arch-xc7-part.h:104-127. -/
def busOfList (alg : Algorithms) (l : List FrameAddress) : Outcome Bus :=
  (assertAll (fun a b => blockType b == blockType a && isBottom b == isBottom a && row b == row a) l) >>= fun _ =>
  emplaceGroups columnOfList (groups (fun a => (column a).toNat) (alg.sort (fun a => (column a).toNat) l))

/-- `Row(first, last)` — arch-xc7-part.h:162-185. -/
def rowOfList (alg : Algorithms) (l : List FrameAddress) : Outcome Row :=
  (assertAll (fun a b => isBottom b == isBottom a && row b == row a) l) >>= fun _ =>
  emplaceGroups (busOfList alg) (groups (fun a => (blockType a).toNat) (alg.sort (fun a => (blockType a).toNat) l))

/-- `GlobalClockRegion(first, last)` — arch-xc7-part.h:228-248. -/
def regionOfList (alg : Algorithms) (l : List FrameAddress) : Outcome Region :=
  (assertAll (fun a b => isBottom b == isBottom a) l) >>= fun _ =>
  emplaceGroups (rowOfList alg) (groups (fun a => (row a).toNat) (alg.sort (fun a => (row a).toNat) l))

/-- `Part(idcode, first, last)` — arch-xc7-part.h:284-291. -/
def Part.ofList (alg : Algorithms) (idcode : Word) (l : List FrameAddress) : Outcome Part :=
  let halves := alg.partition l
  (regionOfList alg halves.2) >>= fun top =>
  (regionOfList alg halves.1) >>= fun bottom =>
  .ok { idcode, top, bottom }

end Verif.Xc7
