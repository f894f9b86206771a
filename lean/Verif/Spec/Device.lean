import Verif.Spec.Packets
/-! # Specification: what a 7-series device does with configuration words

After UG470 (tables 5-23 "Type 1 packet registers", 5-25 "Command register codes", and the configuration
sequence of table 5-19): a machine with a few of the documented registers.  Nothing here refers to the
program; packets are those of `Spec.packetStream`. -/
namespace Verif.Spec
open Verif.Xc7

/-- The state of the configuration logic. -/
structure Device where
  /-- The IDCODE register has been written with this device's code. -/
  idChecked : Bool := false
  /-- It has been written with another code: frame writes are refused from then on. -/
  idError : Bool := false
  /-- Last command. -/
  cmd : Nat := 0
  far : Nat := 0
  mask : Nat := 0
  /-- Control register 0; only bits selected by the mask are written. -/
  ctl0 : Nat := 0
  cor0 : Nat := 0
  /-- Blocks of frame data accepted: first frame address and the words. -/
  loaded : List (Nat × List Word) := []
  /-- Frame data offered without permission (no IDCODE check, or the command is not WCFG). -/
  refused : Bool := false
  /-- The "last frame" command was given, after frame data. -/
  lastFrame : Bool := false
  /-- The start-up sequence was begun, after the last frame. -/
  started : Bool := false
  /-- The device left the configuration mode. -/
  desynced : Bool := false
  /-- A check of the CRC was asked for. -/
  crcCheck : Bool := false
deriving DecidableEq, Repr

/-- A command: 3 LFRM, 5 START, 13 DESYNC; the others are only remembered (1 WCFG enables frame writes). -/
def Device.command (s : Device) (c : Nat) : Device :=
  { s with
    cmd := c
    lastFrame := s.lastFrame || (c == 3 && !s.loaded.isEmpty)
    started := s.started || (c == 5 && s.lastFrame)
    desynced := s.desynced || c == 13 }

/-- One word written to a register: 0 CRC, 1 FAR, 4 CMD, 5 CTL0, 6 MASK, 9 COR0, 12 IDCODE. -/
def Device.write (id : Word) (s : Device) (reg : Nat) (w : Word) : Device :=
  if reg = 0 then { s with crcCheck := true }
  else if reg = 1 then { s with far := w.toNat }
  else if reg = 4 then s.command (w.toNat % 32)
  else if reg = 5 then { s with ctl0 := (s.ctl0 &&& (2 ^ 32 - 1 - s.mask)) ||| (w.toNat &&& s.mask) }
  else if reg = 6 then { s with mask := w.toNat }
  else if reg = 9 then { s with cor0 := w.toNat }
  else if reg = 12 then
    if w = id then { s with idChecked := true } else { s with idError := true }
  else s

/-- One packet.  Opcode 2 writes; register 2 is FDRI, the frame data.  A device that left the configuration mode
ignores everything. -/
def Device.packet (id : Word) (s : Device) (p : Packet) : Device :=
  if s.desynced = true ∨ p.opcode.toNat ≠ 2 then s
  else if p.address.toNat = 2 then
    match p.data with
    | [] => s
    | d :: ds =>
      if s.idChecked = true ∧ s.idError = false ∧ s.cmd = 1 then { s with loaded := s.loaded ++ [(s.far, d :: ds)] }
      else { s with refused := true }
  else p.data.foldl (fun s w => s.write id p.address.toNat w) s

/-- All the words after the sync word. -/
def Device.run (id : Word) (words : List Word) : Device :=
  (packetStream words).foldl (Device.packet id) {}

end Verif.Spec
