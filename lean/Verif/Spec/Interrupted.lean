import Verif.Spec.Memory
/-! # Specification: a device whose loading is interrupted

A device works on words as they come: frame data of a packet that is not complete yet already go into frames.
Nothing here refers to the program. -/
namespace Verif.Spec
open Verif.Xc7

/-- The packet at the end of a word sequence whose data have not all come, with those that have.  `prev` is the packet just
before, `fuel` any number not below the number of words. -/
def openPacket : Nat → Option Packet → List Word → Option Packet
  | 0, _, _ => none
  | _ + 1, _, [] => none
  | fuel + 1, prev, w :: ws =>
    if field w 29 3 = 0 then openPacket fuel (some ⟨0#32, 0#32, 0#32, []⟩) ws
    else if field w 29 3 = 1 then
      let c := field w 0 11
      let p : Packet := ⟨1#32, BitVec.ofNat 32 (field w 27 2), BitVec.ofNat 32 (field w 13 14), ws.take c⟩
      if ws.length < c then some p else openPacket fuel (some p) (ws.drop c)
    else if field w 29 3 = 2 then
      let c := field w 0 27
      let p := prev.map fun q => (⟨2#32, BitVec.ofNat 32 (field w 27 2), q.address, ws.take c⟩ : Packet)
      if ws.length < c then p else openPacket fuel p (ws.drop c)
    else none

/-- The device after the words that have come so far: what it does with complete packets, and with what there is of the last. -/
def Device.sofar (id : Word) (ws : List Word) : Device :=
  (openPacket ws.length none ws).elim (Device.run id ws) (Device.packet id (Device.run id ws))

/-- Loading `words` can be interrupted anywhere and done again.  In a device with the IDCODE some first frames, the more the more words came, then hold
what all the words put there, and all others what they held before; if it starts, all of them have come; and loading everything afterwards
leaves what loading it at once does.  No other device is affected. -/
def Interruptible (order : List Nat) (idcode : Word) (words : List Word) : Prop :=
  ∃ reach : Nat → Nat, (∀ n n', n ≤ n' → reach n ≤ reach n') ∧ ∀ ws, ws <+: words →
    (∀ mem k, (Device.sofar idcode ws).memory order mem k =
      if k ∈ order.take (reach ws.length) then (Device.run idcode words).memory order mem k else mem k) ∧
    ((Device.sofar idcode ws).started = true → ∀ mem, (Device.sofar idcode ws).memory order mem = (Device.run idcode words).memory order mem) ∧
    (∀ mem, (Device.run idcode words).memory order ((Device.sofar idcode ws).memory order mem) = (Device.run idcode words).memory order mem) ∧
    ∀ id, id ≠ idcode → (Device.sofar id ws).started = false ∧ ∀ mem, (Device.sofar id ws).memory order mem = mem

end Verif.Spec
