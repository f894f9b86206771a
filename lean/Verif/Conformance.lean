import Verif.Model.Fasm
import Verif.Model.PartList
import Verif.Model.Configuration
import Verif.Model.Reader
import Verif.Model.Database
import Verif.Model.JsonText
/-! # The repository's own unit tests, replayed on the model

These `example`s are *tests of the fidelity of the model*, not proofs of properties: each one is an expectation
of a `*_test.cc` file of `/repo`, evaluated on the model by the kernel.  No claim of `MANIFEST.json` rests on
them.  Strings are byte lists; the text is in the comment above.  The file is generated. -/
namespace Verif.Conformance

/-! ## `/repo/fpga/fasm-parser_test.cc` -/
section FasmTests
open Fasm

/-- Result and calls of `fasm::Parse` with an always-true callback. -/
def run (ann : Bool) (s : Bytes) : Option (Sev × List Event) :=
  match parse ann (fun _ => true) s with
  | .ok st => some (st.result, st.trace)
  | _ => none

/- "DOTS.IN.FEATURE\n" -/
example : run false [0x44, 0x4f, 0x54, 0x53, 0x2e, 0x49, 0x4e, 0x2e, 0x46, 0x45, 0x41, 0x54, 0x55, 0x52, 0x45,
    0x0a] = some (.success, [.feature 1 [0x44, 0x4f, 0x54, 0x53, 0x2e, 0x49, 0x4e, 0x2e, 0x46, 0x45, 0x41, 0x54,
    0x55, 0x52, 0x45] 0 1 1]) := by decide +kernel
/- "DOTS.IN.FEATURE\r\n" -/
example : run false [0x44, 0x4f, 0x54, 0x53, 0x2e, 0x49, 0x4e, 0x2e, 0x46, 0x45, 0x41, 0x54, 0x55, 0x52, 0x45, 0x0d,
    0x0a] = some (.success, [.feature 1 [0x44, 0x4f, 0x54, 0x53, 0x2e, 0x49, 0x4e, 0x2e, 0x46, 0x45, 0x41, 0x54,
    0x55, 0x52, 0x45] 0 1 1]) := by decide +kernel
/- "D_1_G1TS\n" -/
example : run false [0x44, 0x5f, 0x31, 0x5f, 0x47, 0x31, 0x54, 0x53, 0x0a] = some (.success, [.feature 1 [0x44, 0x5f,
    0x31, 0x5f, 0x47, 0x31, 0x54, 0x53] 0 1 1]) := by decide +kernel
/- "D_1_G1TS\r\n" -/
example : run false [0x44, 0x5f, 0x31, 0x5f, 0x47, 0x31, 0x54, 0x53, 0x0d, 0x0a] = some (.success, [.feature 1 [0x44,
    0x5f, 0x31, 0x5f, 0x47, 0x31, 0x54, 0x53] 0 1 1]) := by decide +kernel
/- "   \tINDENTED # foo\n" -/
example : run false [0x20, 0x20, 0x20, 0x09, 0x49, 0x4e, 0x44, 0x45, 0x4e, 0x54, 0x45, 0x44, 0x20, 0x23, 0x20, 0x66,
    0x6f, 0x6f, 0x0a] = some (.success, [.feature 1 [0x49, 0x4e, 0x44, 0x45, 0x4e, 0x54, 0x45,
    0x44] 0 1 1]) := by decide +kernel
/- "   \tINDENTED # foo\r\n" -/
example : run false [0x20, 0x20, 0x20, 0x09, 0x49, 0x4e, 0x44, 0x45, 0x4e, 0x54, 0x45, 0x44, 0x20, 0x23, 0x20, 0x66,
    0x6f, 0x6f, 0x0d, 0x0a] = some (.success, [.feature 1 [0x49, 0x4e, 0x44, 0x45, 0x4e, 0x54, 0x45,
    0x44] 0 1 1]) := by decide +kernel
/- "0valid\n" -/
example : run false [0x30, 0x76, 0x61, 0x6c, 0x69, 0x64, 0x0a] = some (.success, [.feature 1 [0x30, 0x76, 0x61, 0x6c,
    0x69, 0x64] 0 1 1]) := by decide +kernel
/- "0valid\r\n" -/
example : run false [0x30, 0x76, 0x61, 0x6c, 0x69, 0x64, 0x0d, 0x0a] = some (.success, [.feature 1 [0x30, 0x76, 0x61,
    0x6c, 0x69, 0x64] 0 1 1]) := by decide +kernel
/- "[8:0]\n" -/
example : run false [0x5b, 0x38, 0x3a, 0x30, 0x5d, 0x0a] = some (.error, []) := by decide +kernel
/- "[8:0]\r\n" -/
example : run false [0x5b, 0x38, 0x3a, 0x30, 0x5d, 0x0d, 0x0a] = some (.error, []) := by decide +kernel
/- "\n" -/
example : run false [0x0a] = some (.success, []) := by decide +kernel
/- "\r\n" -/
example : run false [0x0d, 0x0a] = some (.success, []) := by decide +kernel
/- " # hello \n" -/
example : run false [0x20, 0x23, 0x20, 0x68, 0x65, 0x6c, 0x6c, 0x6f, 0x20, 0x0a] = some (.success,
    []) := by decide +kernel
/- " # hello \r\n" -/
example : run false [0x20, 0x23, 0x20, 0x68, 0x65, 0x6c, 0x6c, 0x6f, 0x20, 0x0d, 0x0a] = some (.success,
    []) := by decide +kernel
/- "COMMENT # more stuff\n" -/
example : run false [0x43, 0x4f, 0x4d, 0x4d, 0x45, 0x4e, 0x54, 0x20, 0x23, 0x20, 0x6d, 0x6f, 0x72, 0x65, 0x20, 0x73,
    0x74, 0x75, 0x66, 0x66, 0x0a] = some (.success, [.feature 1 [0x43, 0x4f, 0x4d, 0x4d, 0x45, 0x4e,
    0x54] 0 1 1]) := by decide +kernel
/- "COMMENT # more stuff\r\n" -/
example : run false [0x43, 0x4f, 0x4d, 0x4d, 0x45, 0x4e, 0x54, 0x20, 0x23, 0x20, 0x6d, 0x6f, 0x72, 0x65, 0x20, 0x73,
    0x74, 0x75, 0x66, 0x66, 0x0d, 0x0a] = some (.success, [.feature 1 [0x43, 0x4f, 0x4d, 0x4d, 0x45, 0x4e,
    0x54] 0 1 1]) := by decide +kernel
/- "COMMENT[3:0] = 12 # ok\n" -/
example : run false [0x43, 0x4f, 0x4d, 0x4d, 0x45, 0x4e, 0x54, 0x5b, 0x33, 0x3a, 0x30, 0x5d, 0x20, 0x3d, 0x20, 0x31,
    0x32, 0x20, 0x23, 0x20, 0x6f, 0x6b, 0x0a] = some (.success, [.feature 1 [0x43, 0x4f, 0x4d, 0x4d, 0x45, 0x4e,
    0x54] 0 4 12]) := by decide +kernel
/- "COMMENT[3:0] = 12 # ok\r\n" -/
example : run false [0x43, 0x4f, 0x4d, 0x4d, 0x45, 0x4e, 0x54, 0x5b, 0x33, 0x3a, 0x30, 0x5d, 0x20, 0x3d, 0x20, 0x31,
    0x32, 0x20, 0x23, 0x20, 0x6f, 0x6b, 0x0d, 0x0a] = some (.success, [.feature 1 [0x43, 0x4f, 0x4d, 0x4d, 0x45,
    0x4e, 0x54] 0 4 12]) := by decide +kernel
/- "IMPLICIT_ONE\n" -/
example : run false [0x49, 0x4d, 0x50, 0x4c, 0x49, 0x43, 0x49, 0x54, 0x5f, 0x4f, 0x4e, 0x45, 0x0a] = some (.success,
    [.feature 1 [0x49, 0x4d, 0x50, 0x4c, 0x49, 0x43, 0x49, 0x54, 0x5f, 0x4f, 0x4e,
    0x45] 0 1 1]) := by decide +kernel
/- "IMPLICIT_ONE\r\n" -/
example : run false [0x49, 0x4d, 0x50, 0x4c, 0x49, 0x43, 0x49, 0x54, 0x5f, 0x4f, 0x4e, 0x45, 0x0d,
    0x0a] = some (.success, [.feature 1 [0x49, 0x4d, 0x50, 0x4c, 0x49, 0x43, 0x49, 0x54, 0x5f, 0x4f, 0x4e,
    0x45] 0 1 1]) := by decide +kernel
/- "EXPLICIT_ZERO = 0\n" -/
example : run false [0x45, 0x58, 0x50, 0x4c, 0x49, 0x43, 0x49, 0x54, 0x5f, 0x5a, 0x45, 0x52, 0x4f, 0x20, 0x3d, 0x20,
    0x30, 0x0a] = some (.success, [.feature 1 [0x45, 0x58, 0x50, 0x4c, 0x49, 0x43, 0x49, 0x54, 0x5f, 0x5a, 0x45,
    0x52, 0x4f] 0 1 0]) := by decide +kernel
/- "EXPLICIT_ZERO = 0\r\n" -/
example : run false [0x45, 0x58, 0x50, 0x4c, 0x49, 0x43, 0x49, 0x54, 0x5f, 0x5a, 0x45, 0x52, 0x4f, 0x20, 0x3d, 0x20,
    0x30, 0x0d, 0x0a] = some (.success, [.feature 1 [0x45, 0x58, 0x50, 0x4c, 0x49, 0x43, 0x49, 0x54, 0x5f, 0x5a,
    0x45, 0x52, 0x4f] 0 1 0]) := by decide +kernel
/- "IMPLICIT_ZERO[8:0] =  # no value assigned\n" -/
example : run false [0x49, 0x4d, 0x50, 0x4c, 0x49, 0x43, 0x49, 0x54, 0x5f, 0x5a, 0x45, 0x52, 0x4f, 0x5b, 0x38, 0x3a,
    0x30, 0x5d, 0x20, 0x3d, 0x20, 0x20, 0x23, 0x20, 0x6e, 0x6f, 0x20, 0x76, 0x61, 0x6c, 0x75, 0x65, 0x20, 0x61, 0x73,
    0x73, 0x69, 0x67, 0x6e, 0x65, 0x64, 0x0a] = some (.success, [.feature 1 [0x49, 0x4d, 0x50, 0x4c, 0x49, 0x43,
    0x49, 0x54, 0x5f, 0x5a, 0x45, 0x52, 0x4f] 0 9 0]) := by decide +kernel
/- "IMPLICIT_ZERO[8:0] =  # no value assigned\r\n" -/
example : run false [0x49, 0x4d, 0x50, 0x4c, 0x49, 0x43, 0x49, 0x54, 0x5f, 0x5a, 0x45, 0x52, 0x4f, 0x5b, 0x38, 0x3a,
    0x30, 0x5d, 0x20, 0x3d, 0x20, 0x20, 0x23, 0x20, 0x6e, 0x6f, 0x20, 0x76, 0x61, 0x6c, 0x75, 0x65, 0x20, 0x61, 0x73,
    0x73, 0x69, 0x67, 0x6e, 0x65, 0x64, 0x0d, 0x0a] = some (.success, [.feature 1 [0x49, 0x4d, 0x50, 0x4c, 0x49,
    0x43, 0x49, 0x54, 0x5f, 0x5a, 0x45, 0x52, 0x4f] 0 9 0]) := by decide +kernel
/- "UNDERSCORE_BITPOS[ _8_ ]\n" -/
example : run false [0x55, 0x4e, 0x44, 0x45, 0x52, 0x53, 0x43, 0x4f, 0x52, 0x45, 0x5f, 0x42, 0x49, 0x54, 0x50, 0x4f,
    0x53, 0x5b, 0x20, 0x5f, 0x38, 0x5f, 0x20, 0x5d, 0x0a] = some (.success, [.feature 1 [0x55, 0x4e, 0x44, 0x45,
    0x52, 0x53, 0x43, 0x4f, 0x52, 0x45, 0x5f, 0x42, 0x49, 0x54, 0x50, 0x4f, 0x53] 8 1 1]) := by decide +kernel
/- "UNDERSCORE_BITPOS[ _8_ ]\r\n" -/
example : run false [0x55, 0x4e, 0x44, 0x45, 0x52, 0x53, 0x43, 0x4f, 0x52, 0x45, 0x5f, 0x42, 0x49, 0x54, 0x50, 0x4f,
    0x53, 0x5b, 0x20, 0x5f, 0x38, 0x5f, 0x20, 0x5d, 0x0d, 0x0a] = some (.success, [.feature 1 [0x55, 0x4e, 0x44,
    0x45, 0x52, 0x53, 0x43, 0x4f, 0x52, 0x45, 0x5f, 0x42, 0x49, 0x54, 0x50, 0x4f, 0x53] 8 1 1]) := by decide +kernel
/- "UNDERSCORE_DECIMAL[15:0] = 1_234\n" -/
example : run false [0x55, 0x4e, 0x44, 0x45, 0x52, 0x53, 0x43, 0x4f, 0x52, 0x45, 0x5f, 0x44, 0x45, 0x43, 0x49, 0x4d,
    0x41, 0x4c, 0x5b, 0x31, 0x35, 0x3a, 0x30, 0x5d, 0x20, 0x3d, 0x20, 0x31, 0x5f, 0x32, 0x33, 0x34,
    0x0a] = some (.success, [.feature 1 [0x55, 0x4e, 0x44, 0x45, 0x52, 0x53, 0x43, 0x4f, 0x52, 0x45, 0x5f, 0x44,
    0x45, 0x43, 0x49, 0x4d, 0x41, 0x4c] 0 16 1234]) := by decide +kernel
/- "UNDERSCORE_DECIMAL[15:0] = 1_234\r\n" -/
example : run false [0x55, 0x4e, 0x44, 0x45, 0x52, 0x53, 0x43, 0x4f, 0x52, 0x45, 0x5f, 0x44, 0x45, 0x43, 0x49, 0x4d,
    0x41, 0x4c, 0x5b, 0x31, 0x35, 0x3a, 0x30, 0x5d, 0x20, 0x3d, 0x20, 0x31, 0x5f, 0x32, 0x33, 0x34, 0x0d,
    0x0a] = some (.success, [.feature 1 [0x55, 0x4e, 0x44, 0x45, 0x52, 0x53, 0x43, 0x4f, 0x52, 0x45, 0x5f, 0x44,
    0x45, 0x43, 0x49, 0x4d, 0x41, 0x4c] 0 16 1234]) := by decide +kernel
/- "UNDERSCORE_HEXVALUE[15:0] = 'hAB_CD\n" -/
example : run false [0x55, 0x4e, 0x44, 0x45, 0x52, 0x53, 0x43, 0x4f, 0x52, 0x45, 0x5f, 0x48, 0x45, 0x58, 0x56, 0x41,
    0x4c, 0x55, 0x45, 0x5b, 0x31, 0x35, 0x3a, 0x30, 0x5d, 0x20, 0x3d, 0x20, 0x27, 0x68, 0x41, 0x42, 0x5f, 0x43, 0x44,
    0x0a] = some (.success, [.feature 1 [0x55, 0x4e, 0x44, 0x45, 0x52, 0x53, 0x43, 0x4f, 0x52, 0x45, 0x5f, 0x48,
    0x45, 0x58, 0x56, 0x41, 0x4c, 0x55, 0x45] 0 16 43981]) := by decide +kernel
/- "UNDERSCORE_HEXVALUE[15:0] = 'hAB_CD\r\n" -/
example : run false [0x55, 0x4e, 0x44, 0x45, 0x52, 0x53, 0x43, 0x4f, 0x52, 0x45, 0x5f, 0x48, 0x45, 0x58, 0x56, 0x41,
    0x4c, 0x55, 0x45, 0x5b, 0x31, 0x35, 0x3a, 0x30, 0x5d, 0x20, 0x3d, 0x20, 0x27, 0x68, 0x41, 0x42, 0x5f, 0x43, 0x44,
    0x0d, 0x0a] = some (.success, [.feature 1 [0x55, 0x4e, 0x44, 0x45, 0x52, 0x53, 0x43, 0x4f, 0x52, 0x45, 0x5f,
    0x48, 0x45, 0x58, 0x56, 0x41, 0x4c, 0x55, 0x45] 0 16 43981]) := by decide +kernel
/- "ASSIGN_DECIMAL[3:0] = 5\n" -/
example : run false [0x41, 0x53, 0x53, 0x49, 0x47, 0x4e, 0x5f, 0x44, 0x45, 0x43, 0x49, 0x4d, 0x41, 0x4c, 0x5b, 0x33,
    0x3a, 0x30, 0x5d, 0x20, 0x3d, 0x20, 0x35, 0x0a] = some (.success, [.feature 1 [0x41, 0x53, 0x53, 0x49, 0x47,
    0x4e, 0x5f, 0x44, 0x45, 0x43, 0x49, 0x4d, 0x41, 0x4c] 0 4 5]) := by decide +kernel
/- "ASSIGN_DECIMAL[3:0] = 5\r\n" -/
example : run false [0x41, 0x53, 0x53, 0x49, 0x47, 0x4e, 0x5f, 0x44, 0x45, 0x43, 0x49, 0x4d, 0x41, 0x4c, 0x5b, 0x33,
    0x3a, 0x30, 0x5d, 0x20, 0x3d, 0x20, 0x35, 0x0d, 0x0a] = some (.success, [.feature 1 [0x41, 0x53, 0x53, 0x49,
    0x47, 0x4e, 0x5f, 0x44, 0x45, 0x43, 0x49, 0x4d, 0x41, 0x4c] 0 4 5]) := by decide +kernel
/- "ASSIGN_DECIMAL[3:0] = 4'd5\n" -/
example : run false [0x41, 0x53, 0x53, 0x49, 0x47, 0x4e, 0x5f, 0x44, 0x45, 0x43, 0x49, 0x4d, 0x41, 0x4c, 0x5b, 0x33,
    0x3a, 0x30, 0x5d, 0x20, 0x3d, 0x20, 0x34, 0x27, 0x64, 0x35, 0x0a] = some (.success, [.feature 1 [0x41, 0x53,
    0x53, 0x49, 0x47, 0x4e, 0x5f, 0x44, 0x45, 0x43, 0x49, 0x4d, 0x41, 0x4c] 0 4 5]) := by decide +kernel
/- "ASSIGN_DECIMAL[3:0] = 4'd5\r\n" -/
example : run false [0x41, 0x53, 0x53, 0x49, 0x47, 0x4e, 0x5f, 0x44, 0x45, 0x43, 0x49, 0x4d, 0x41, 0x4c, 0x5b, 0x33,
    0x3a, 0x30, 0x5d, 0x20, 0x3d, 0x20, 0x34, 0x27, 0x64, 0x35, 0x0d, 0x0a] = some (.success, [.feature 1 [0x41,
    0x53, 0x53, 0x49, 0x47, 0x4e, 0x5f, 0x44, 0x45, 0x43, 0x49, 0x4d, 0x41, 0x4c] 0 4 5]) := by decide +kernel
/- "ASSIGN_BROKEN_DEC[7:0] = 4'd5a\n" -/
example : run false [0x41, 0x53, 0x53, 0x49, 0x47, 0x4e, 0x5f, 0x42, 0x52, 0x4f, 0x4b, 0x45, 0x4e, 0x5f, 0x44, 0x45,
    0x43, 0x5b, 0x37, 0x3a, 0x30, 0x5d, 0x20, 0x3d, 0x20, 0x34, 0x27, 0x64, 0x35, 0x61, 0x0a] = some (.error,
    [.feature 1 [0x41, 0x53, 0x53, 0x49, 0x47, 0x4e, 0x5f, 0x42, 0x52, 0x4f, 0x4b, 0x45, 0x4e, 0x5f, 0x44, 0x45,
    0x43] 0 8 5]) := by decide +kernel
/- "ASSIGN_BROKEN_DEC[7:0] = 4'd5a\r\n" -/
example : run false [0x41, 0x53, 0x53, 0x49, 0x47, 0x4e, 0x5f, 0x42, 0x52, 0x4f, 0x4b, 0x45, 0x4e, 0x5f, 0x44, 0x45,
    0x43, 0x5b, 0x37, 0x3a, 0x30, 0x5d, 0x20, 0x3d, 0x20, 0x34, 0x27, 0x64, 0x35, 0x61, 0x0d, 0x0a] = some (.error,
    [.feature 1 [0x41, 0x53, 0x53, 0x49, 0x47, 0x4e, 0x5f, 0x42, 0x52, 0x4f, 0x4b, 0x45, 0x4e, 0x5f, 0x44, 0x45,
    0x43] 0 8 5]) := by decide +kernel
/- "ASSIGN_HEX1[15:0] = 16'hCa_Fe\n" -/
example : run false [0x41, 0x53, 0x53, 0x49, 0x47, 0x4e, 0x5f, 0x48, 0x45, 0x58, 0x31, 0x5b, 0x31, 0x35, 0x3a, 0x30,
    0x5d, 0x20, 0x3d, 0x20, 0x31, 0x36, 0x27, 0x68, 0x43, 0x61, 0x5f, 0x46, 0x65, 0x0a] = some (.success,
    [.feature 1 [0x41, 0x53, 0x53, 0x49, 0x47, 0x4e, 0x5f, 0x48, 0x45, 0x58, 0x31] 0 16 51966]) := by decide +kernel
/- "ASSIGN_HEX1[15:0] = 16'hCa_Fe\r\n" -/
example : run false [0x41, 0x53, 0x53, 0x49, 0x47, 0x4e, 0x5f, 0x48, 0x45, 0x58, 0x31, 0x5b, 0x31, 0x35, 0x3a, 0x30,
    0x5d, 0x20, 0x3d, 0x20, 0x31, 0x36, 0x27, 0x68, 0x43, 0x61, 0x5f, 0x46, 0x65, 0x0d, 0x0a] = some (.success,
    [.feature 1 [0x41, 0x53, 0x53, 0x49, 0x47, 0x4e, 0x5f, 0x48, 0x45, 0x58, 0x31] 0 16 51966]) := by decide +kernel
/- "ASSIGN_HEX2[31:0] = 32'h_dead_beef\n" -/
example : run false [0x41, 0x53, 0x53, 0x49, 0x47, 0x4e, 0x5f, 0x48, 0x45, 0x58, 0x32, 0x5b, 0x33, 0x31, 0x3a, 0x30,
    0x5d, 0x20, 0x3d, 0x20, 0x33, 0x32, 0x27, 0x68, 0x5f, 0x64, 0x65, 0x61, 0x64, 0x5f, 0x62, 0x65, 0x65, 0x66,
    0x0a] = some (.success, [.feature 1 [0x41, 0x53, 0x53, 0x49, 0x47, 0x4e, 0x5f, 0x48, 0x45, 0x58,
    0x32] 0 32 3735928559]) := by decide +kernel
/- "ASSIGN_HEX2[31:0] = 32'h_dead_beef\r\n" -/
example : run false [0x41, 0x53, 0x53, 0x49, 0x47, 0x4e, 0x5f, 0x48, 0x45, 0x58, 0x32, 0x5b, 0x33, 0x31, 0x3a, 0x30,
    0x5d, 0x20, 0x3d, 0x20, 0x33, 0x32, 0x27, 0x68, 0x5f, 0x64, 0x65, 0x61, 0x64, 0x5f, 0x62, 0x65, 0x65, 0x66, 0x0d,
    0x0a] = some (.success, [.feature 1 [0x41, 0x53, 0x53, 0x49, 0x47, 0x4e, 0x5f, 0x48, 0x45, 0x58,
    0x32] 0 32 3735928559]) := by decide +kernel
/- "ASSIGN_HEX3[31:0] = 32 ' h _dead_beef \n" -/
example : run false [0x41, 0x53, 0x53, 0x49, 0x47, 0x4e, 0x5f, 0x48, 0x45, 0x58, 0x33, 0x5b, 0x33, 0x31, 0x3a, 0x30,
    0x5d, 0x20, 0x3d, 0x20, 0x33, 0x32, 0x20, 0x27, 0x20, 0x68, 0x20, 0x5f, 0x64, 0x65, 0x61, 0x64, 0x5f, 0x62, 0x65,
    0x65, 0x66, 0x20, 0x0a] = some (.success, [.feature 1 [0x41, 0x53, 0x53, 0x49, 0x47, 0x4e, 0x5f, 0x48, 0x45,
    0x58, 0x33] 0 32 3735928559]) := by decide +kernel
/- "ASSIGN_HEX3[31:0] = 32 ' h _dead_beef \r\n" -/
example : run false [0x41, 0x53, 0x53, 0x49, 0x47, 0x4e, 0x5f, 0x48, 0x45, 0x58, 0x33, 0x5b, 0x33, 0x31, 0x3a, 0x30,
    0x5d, 0x20, 0x3d, 0x20, 0x33, 0x32, 0x20, 0x27, 0x20, 0x68, 0x20, 0x5f, 0x64, 0x65, 0x61, 0x64, 0x5f, 0x62, 0x65,
    0x65, 0x66, 0x20, 0x0d, 0x0a] = some (.success, [.feature 1 [0x41, 0x53, 0x53, 0x49, 0x47, 0x4e, 0x5f, 0x48,
    0x45, 0x58, 0x33] 0 32 3735928559]) := by decide +kernel
/- "BINARY[63:48] = 16'b1111_0000_1111_0000\n" -/
example : run false [0x42, 0x49, 0x4e, 0x41, 0x52, 0x59, 0x5b, 0x36, 0x33, 0x3a, 0x34, 0x38, 0x5d, 0x20, 0x3d, 0x20,
    0x31, 0x36, 0x27, 0x62, 0x31, 0x31, 0x31, 0x31, 0x5f, 0x30, 0x30, 0x30, 0x30, 0x5f, 0x31, 0x31, 0x31, 0x31, 0x5f,
    0x30, 0x30, 0x30, 0x30, 0x0a] = some (.success, [.feature 1 [0x42, 0x49, 0x4e, 0x41, 0x52,
    0x59] 48 16 61680]) := by decide +kernel
/- "BINARY[63:48] = 16'b1111_0000_1111_0000\r\n" -/
example : run false [0x42, 0x49, 0x4e, 0x41, 0x52, 0x59, 0x5b, 0x36, 0x33, 0x3a, 0x34, 0x38, 0x5d, 0x20, 0x3d, 0x20,
    0x31, 0x36, 0x27, 0x62, 0x31, 0x31, 0x31, 0x31, 0x5f, 0x30, 0x30, 0x30, 0x30, 0x5f, 0x31, 0x31, 0x31, 0x31, 0x5f,
    0x30, 0x30, 0x30, 0x30, 0x0d, 0x0a] = some (.success, [.feature 1 [0x42, 0x49, 0x4e, 0x41, 0x52,
    0x59] 48 16 61680]) := by decide +kernel
/- "ASSIGN_OCT[8:0] = 9'o644\n" -/
example : run false [0x41, 0x53, 0x53, 0x49, 0x47, 0x4e, 0x5f, 0x4f, 0x43, 0x54, 0x5b, 0x38, 0x3a, 0x30, 0x5d, 0x20,
    0x3d, 0x20, 0x39, 0x27, 0x6f, 0x36, 0x34, 0x34, 0x0a] = some (.success, [.feature 1 [0x41, 0x53, 0x53, 0x49,
    0x47, 0x4e, 0x5f, 0x4f, 0x43, 0x54] 0 9 420]) := by decide +kernel
/- "ASSIGN_OCT[8:0] = 9'o644\r\n" -/
example : run false [0x41, 0x53, 0x53, 0x49, 0x47, 0x4e, 0x5f, 0x4f, 0x43, 0x54, 0x5b, 0x38, 0x3a, 0x30, 0x5d, 0x20,
    0x3d, 0x20, 0x39, 0x27, 0x6f, 0x36, 0x34, 0x34, 0x0d, 0x0a] = some (.success, [.feature 1 [0x41, 0x53, 0x53,
    0x49, 0x47, 0x4e, 0x5f, 0x4f, 0x43, 0x54] 0 9 420]) := by decide +kernel
/- "UNKNOWN_BASE[7:0] = 8'y123\n" -/
example : run false [0x55, 0x4e, 0x4b, 0x4e, 0x4f, 0x57, 0x4e, 0x5f, 0x42, 0x41, 0x53, 0x45, 0x5b, 0x37, 0x3a, 0x30,
    0x5d, 0x20, 0x3d, 0x20, 0x38, 0x27, 0x79, 0x31, 0x32, 0x33, 0x0a] = some (.error, [.feature 1 [0x55, 0x4e, 0x4b,
    0x4e, 0x4f, 0x57, 0x4e, 0x5f, 0x42, 0x41, 0x53, 0x45] 0 8 1]) := by decide +kernel
/- "UNKNOWN_BASE[7:0] = 8'y123\r\n" -/
example : run false [0x55, 0x4e, 0x4b, 0x4e, 0x4f, 0x57, 0x4e, 0x5f, 0x42, 0x41, 0x53, 0x45, 0x5b, 0x37, 0x3a, 0x30,
    0x5d, 0x20, 0x3d, 0x20, 0x38, 0x27, 0x79, 0x31, 0x32, 0x33, 0x0d, 0x0a] = some (.error, [.feature 1 [0x55, 0x4e,
    0x4b, 0x4e, 0x4f, 0x57, 0x4e, 0x5f, 0x42, 0x41, 0x53, 0x45] 0 8 1]) := by decide +kernel
/- "ASSIGN_INVALID[8:0] = beef # hex not expected\n" -/
example : run false [0x41, 0x53, 0x53, 0x49, 0x47, 0x4e, 0x5f, 0x49, 0x4e, 0x56, 0x41, 0x4c, 0x49, 0x44, 0x5b, 0x38,
    0x3a, 0x30, 0x5d, 0x20, 0x3d, 0x20, 0x62, 0x65, 0x65, 0x66, 0x20, 0x23, 0x20, 0x68, 0x65, 0x78, 0x20, 0x6e, 0x6f,
    0x74, 0x20, 0x65, 0x78, 0x70, 0x65, 0x63, 0x74, 0x65, 0x64, 0x0a] = some (.error, [.feature 1 [0x41, 0x53, 0x53,
    0x49, 0x47, 0x4e, 0x5f, 0x49, 0x4e, 0x56, 0x41, 0x4c, 0x49, 0x44] 0 9 0]) := by decide +kernel
/- "ASSIGN_INVALID[8:0] = beef # hex not expected\r\n" -/
example : run false [0x41, 0x53, 0x53, 0x49, 0x47, 0x4e, 0x5f, 0x49, 0x4e, 0x56, 0x41, 0x4c, 0x49, 0x44, 0x5b, 0x38,
    0x3a, 0x30, 0x5d, 0x20, 0x3d, 0x20, 0x62, 0x65, 0x65, 0x66, 0x20, 0x23, 0x20, 0x68, 0x65, 0x78, 0x20, 0x6e, 0x6f,
    0x74, 0x20, 0x65, 0x78, 0x70, 0x65, 0x63, 0x74, 0x65, 0x64, 0x0d, 0x0a] = some (.error, [.feature 1 [0x41, 0x53,
    0x53, 0x49, 0x47, 0x4e, 0x5f, 0x49, 0x4e, 0x56, 0x41, 0x4c, 0x49, 0x44] 0 9 0]) := by decide +kernel
/- "ASSIGN_INVALID[8:0] = 5beef # starts valid dec\n" -/
example : run false [0x41, 0x53, 0x53, 0x49, 0x47, 0x4e, 0x5f, 0x49, 0x4e, 0x56, 0x41, 0x4c, 0x49, 0x44, 0x5b, 0x38,
    0x3a, 0x30, 0x5d, 0x20, 0x3d, 0x20, 0x35, 0x62, 0x65, 0x65, 0x66, 0x20, 0x23, 0x20, 0x73, 0x74, 0x61, 0x72, 0x74,
    0x73, 0x20, 0x76, 0x61, 0x6c, 0x69, 0x64, 0x20, 0x64, 0x65, 0x63, 0x0a] = some (.error, [.feature 1 [0x41, 0x53,
    0x53, 0x49, 0x47, 0x4e, 0x5f, 0x49, 0x4e, 0x56, 0x41, 0x4c, 0x49, 0x44] 0 9 5]) := by decide +kernel
/- "ASSIGN_INVALID[8:0] = 5beef # starts valid dec\r\n" -/
example : run false [0x41, 0x53, 0x53, 0x49, 0x47, 0x4e, 0x5f, 0x49, 0x4e, 0x56, 0x41, 0x4c, 0x49, 0x44, 0x5b, 0x38,
    0x3a, 0x30, 0x5d, 0x20, 0x3d, 0x20, 0x35, 0x62, 0x65, 0x65, 0x66, 0x20, 0x23, 0x20, 0x73, 0x74, 0x61, 0x72, 0x74,
    0x73, 0x20, 0x76, 0x61, 0x6c, 0x69, 0x64, 0x20, 0x64, 0x65, 0x63, 0x0d, 0x0a] = some (.error, [.feature 1 [0x41,
    0x53, 0x53, 0x49, 0x47, 0x4e, 0x5f, 0x49, 0x4e, 0x56, 0x41, 0x4c, 0x49, 0x44] 0 9 5]) := by decide +kernel
/- "INVERTED_RANGE[0:8]\n" -/
example : run false [0x49, 0x4e, 0x56, 0x45, 0x52, 0x54, 0x45, 0x44, 0x5f, 0x52, 0x41, 0x4e, 0x47, 0x45, 0x5b, 0x30,
    0x3a, 0x38, 0x5d, 0x0a] = some (.skipped, []) := by decide +kernel
/- "INVERTED_RANGE[0:8]\r\n" -/
example : run false [0x49, 0x4e, 0x56, 0x45, 0x52, 0x54, 0x45, 0x44, 0x5f, 0x52, 0x41, 0x4e, 0x47, 0x45, 0x5b, 0x30,
    0x3a, 0x38, 0x5d, 0x0d, 0x0a] = some (.skipped, []) := by decide +kernel
/- "BRACKET_MISSING[4:0xyz\n" -/
example : run false [0x42, 0x52, 0x41, 0x43, 0x4b, 0x45, 0x54, 0x5f, 0x4d, 0x49, 0x53, 0x53, 0x49, 0x4e, 0x47, 0x5b,
    0x34, 0x3a, 0x30, 0x78, 0x79, 0x7a, 0x0a] = some (.error, []) := by decide +kernel
/- "BRACKET_MISSING[4:0xyz\r\n" -/
example : run false [0x42, 0x52, 0x41, 0x43, 0x4b, 0x45, 0x54, 0x5f, 0x4d, 0x49, 0x53, 0x53, 0x49, 0x4e, 0x47, 0x5b,
    0x34, 0x3a, 0x30, 0x78, 0x79, 0x7a, 0x0d, 0x0a] = some (.error, []) := by decide +kernel
/- "FOO[255:192] = 42\n" -/
example : run false [0x46, 0x4f, 0x4f, 0x5b, 0x32, 0x35, 0x35, 0x3a, 0x31, 0x39, 0x32, 0x5d, 0x20, 0x3d, 0x20, 0x34,
    0x32, 0x0a] = some (.success, [.feature 1 [0x46, 0x4f, 0x4f] 192 64 42]) := by decide +kernel
/- "FOO[255:192] = 42\r\n" -/
example : run false [0x46, 0x4f, 0x4f, 0x5b, 0x32, 0x35, 0x35, 0x3a, 0x31, 0x39, 0x32, 0x5d, 0x20, 0x3d, 0x20, 0x34,
    0x32, 0x0d, 0x0a] = some (.success, [.feature 1 [0x46, 0x4f, 0x4f] 192 64 42]) := by decide +kernel
/- "BAR[255:0] = 42\n" -/
example : run false [0x42, 0x41, 0x52, 0x5b, 0x32, 0x35, 0x35, 0x3a, 0x30, 0x5d, 0x20, 0x3d, 0x20, 0x34, 0x32,
    0x0a] = some (.error, [.feature 1 [0x42, 0x41, 0x52] 0 64 42]) := by decide +kernel
/- "BAR[255:0] = 42\r\n" -/
example : run false [0x42, 0x41, 0x52, 0x5b, 0x32, 0x35, 0x35, 0x3a, 0x30, 0x5d, 0x20, 0x3d, 0x20, 0x34, 0x32, 0x0d,
    0x0a] = some (.error, [.feature 1 [0x42, 0x41, 0x52] 0 64 42]) := by decide +kernel
/- "ASSIGN_HEX[15:0] = 32'hcafebabe\n" -/
example : run false [0x41, 0x53, 0x53, 0x49, 0x47, 0x4e, 0x5f, 0x48, 0x45, 0x58, 0x5b, 0x31, 0x35, 0x3a, 0x30, 0x5d,
    0x20, 0x3d, 0x20, 0x33, 0x32, 0x27, 0x68, 0x63, 0x61, 0x66, 0x65, 0x62, 0x61, 0x62, 0x65,
    0x0a] = some (.nonCritical, [.feature 1 [0x41, 0x53, 0x53, 0x49, 0x47, 0x4e, 0x5f, 0x48, 0x45,
    0x58] 0 16 47806]) := by decide +kernel
/- "ASSIGN_HEX[15:0] = 32'hcafebabe\r\n" -/
example : run false [0x41, 0x53, 0x53, 0x49, 0x47, 0x4e, 0x5f, 0x48, 0x45, 0x58, 0x5b, 0x31, 0x35, 0x3a, 0x30, 0x5d,
    0x20, 0x3d, 0x20, 0x33, 0x32, 0x27, 0x68, 0x63, 0x61, 0x66, 0x65, 0x62, 0x61, 0x62, 0x65, 0x0d,
    0x0a] = some (.nonCritical, [.feature 1 [0x41, 0x53, 0x53, 0x49, 0x47, 0x4e, 0x5f, 0x48, 0x45,
    0x58] 0 16 47806]) := by decide +kernel
/- "ASSIGN_DECIMAL[3:0] = 255\n" -/
example : run false [0x41, 0x53, 0x53, 0x49, 0x47, 0x4e, 0x5f, 0x44, 0x45, 0x43, 0x49, 0x4d, 0x41, 0x4c, 0x5b, 0x33,
    0x3a, 0x30, 0x5d, 0x20, 0x3d, 0x20, 0x32, 0x35, 0x35, 0x0a] = some (.success, [.feature 1 [0x41, 0x53, 0x53,
    0x49, 0x47, 0x4e, 0x5f, 0x44, 0x45, 0x43, 0x49, 0x4d, 0x41, 0x4c] 0 4 15]) := by decide +kernel
/- "ASSIGN_DECIMAL[3:0] = 255\r\n" -/
example : run false [0x41, 0x53, 0x53, 0x49, 0x47, 0x4e, 0x5f, 0x44, 0x45, 0x43, 0x49, 0x4d, 0x41, 0x4c, 0x5b, 0x33,
    0x3a, 0x30, 0x5d, 0x20, 0x3d, 0x20, 0x32, 0x35, 0x35, 0x0d, 0x0a] = some (.success, [.feature 1 [0x41, 0x53,
    0x53, 0x49, 0x47, 0x4e, 0x5f, 0x44, 0x45, 0x43, 0x49, 0x4d, 0x41, 0x4c] 0 4 15]) := by decide +kernel
/- "{.global = \"annotation\"}\n" -/
example : run false [0x7b, 0x2e, 0x67, 0x6c, 0x6f, 0x62, 0x61, 0x6c, 0x20, 0x3d, 0x20, 0x22, 0x61, 0x6e, 0x6e, 0x6f,
    0x74, 0x61, 0x74, 0x69, 0x6f, 0x6e, 0x22, 0x7d, 0x0a] = some (.success, []) := by decide +kernel
/- "{.global = \"annotation\"}\r\n" -/
example : run false [0x7b, 0x2e, 0x67, 0x6c, 0x6f, 0x62, 0x61, 0x6c, 0x20, 0x3d, 0x20, 0x22, 0x61, 0x6e, 0x6e, 0x6f,
    0x74, 0x61, 0x74, 0x69, 0x6f, 0x6e, 0x22, 0x7d, 0x0d, 0x0a] = some (.success, []) := by decide +kernel
/- "HELLO {.foo = \"bar\"}\n" -/
example : run false [0x48, 0x45, 0x4c, 0x4c, 0x4f, 0x20, 0x7b, 0x2e, 0x66, 0x6f, 0x6f, 0x20, 0x3d, 0x20, 0x22, 0x62,
    0x61, 0x72, 0x22, 0x7d, 0x0a] = some (.success, [.feature 1 [0x48, 0x45, 0x4c, 0x4c,
    0x4f] 0 1 1]) := by decide +kernel
/- "HELLO {.foo = \"bar\"}\r\n" -/
example : run false [0x48, 0x45, 0x4c, 0x4c, 0x4f, 0x20, 0x7b, 0x2e, 0x66, 0x6f, 0x6f, 0x20, 0x3d, 0x20, 0x22, 0x62,
    0x61, 0x72, 0x22, 0x7d, 0x0d, 0x0a] = some (.success, [.feature 1 [0x48, 0x45, 0x4c, 0x4c,
    0x4f] 0 1 1]) := by decide +kernel
/- "HELLO[5:0] = 42{.foo = \"bar\"}\n" -/
example : run false [0x48, 0x45, 0x4c, 0x4c, 0x4f, 0x5b, 0x35, 0x3a, 0x30, 0x5d, 0x20, 0x3d, 0x20, 0x34, 0x32, 0x7b,
    0x2e, 0x66, 0x6f, 0x6f, 0x20, 0x3d, 0x20, 0x22, 0x62, 0x61, 0x72, 0x22, 0x7d, 0x0a] = some (.success,
    [.feature 1 [0x48, 0x45, 0x4c, 0x4c, 0x4f] 0 6 42]) := by decide +kernel
/- "HELLO[5:0] = 42{.foo = \"bar\"}\r\n" -/
example : run false [0x48, 0x45, 0x4c, 0x4c, 0x4f, 0x5b, 0x35, 0x3a, 0x30, 0x5d, 0x20, 0x3d, 0x20, 0x34, 0x32, 0x7b,
    0x2e, 0x66, 0x6f, 0x6f, 0x20, 0x3d, 0x20, 0x22, 0x62, 0x61, 0x72, 0x22, 0x7d, 0x0d, 0x0a] = some (.success,
    [.feature 1 [0x48, 0x45, 0x4c, 0x4c, 0x4f] 0 6 42]) := by decide +kernel
/- "EXPLICIT_ZERO = 0 {.foo = \"bar\"}\n" -/
example : run false [0x45, 0x58, 0x50, 0x4c, 0x49, 0x43, 0x49, 0x54, 0x5f, 0x5a, 0x45, 0x52, 0x4f, 0x20, 0x3d, 0x20,
    0x30, 0x20, 0x7b, 0x2e, 0x66, 0x6f, 0x6f, 0x20, 0x3d, 0x20, 0x22, 0x62, 0x61, 0x72, 0x22, 0x7d,
    0x0a] = some (.success, [.feature 1 [0x45, 0x58, 0x50, 0x4c, 0x49, 0x43, 0x49, 0x54, 0x5f, 0x5a, 0x45, 0x52,
    0x4f] 0 1 0]) := by decide +kernel
/- "EXPLICIT_ZERO = 0 {.foo = \"bar\"}\r\n" -/
example : run false [0x45, 0x58, 0x50, 0x4c, 0x49, 0x43, 0x49, 0x54, 0x5f, 0x5a, 0x45, 0x52, 0x4f, 0x20, 0x3d, 0x20,
    0x30, 0x20, 0x7b, 0x2e, 0x66, 0x6f, 0x6f, 0x20, 0x3d, 0x20, 0x22, 0x62, 0x61, 0x72, 0x22, 0x7d, 0x0d,
    0x0a] = some (.success, [.feature 1 [0x45, 0x58, 0x50, 0x4c, 0x49, 0x43, 0x49, 0x54, 0x5f, 0x5a, 0x45, 0x52,
    0x4f] 0 1 0]) := by decide +kernel
/- "ASSIGN_LONG[191:0] = 192'h0123456789ABCDEFDEADBEEFDEADBEEFAABBCCDDEEFF0011\n" -/
example : run false [0x41, 0x53, 0x53, 0x49, 0x47, 0x4e, 0x5f, 0x4c, 0x4f, 0x4e, 0x47, 0x5b, 0x31, 0x39, 0x31, 0x3a,
    0x30, 0x5d, 0x20, 0x3d, 0x20, 0x31, 0x39, 0x32, 0x27, 0x68, 0x30, 0x31, 0x32, 0x33, 0x34, 0x35, 0x36, 0x37, 0x38,
    0x39, 0x41, 0x42, 0x43, 0x44, 0x45, 0x46, 0x44, 0x45, 0x41, 0x44, 0x42, 0x45, 0x45, 0x46, 0x44, 0x45, 0x41, 0x44,
    0x42, 0x45, 0x45, 0x46, 0x41, 0x41, 0x42, 0x42, 0x43, 0x43, 0x44, 0x44, 0x45, 0x45, 0x46, 0x46, 0x30, 0x30, 0x31,
    0x31, 0x0a] = some (.success, [.feature 1 [0x41, 0x53, 0x53, 0x49, 0x47, 0x4e, 0x5f, 0x4c, 0x4f, 0x4e,
    0x47] 0 64 0xAABBCCDDEEFF0011, .feature 1 [0x41, 0x53, 0x53, 0x49, 0x47, 0x4e, 0x5f, 0x4c, 0x4f, 0x4e,
    0x47] 64 64 0xDEADBEEFDEADBEEF, .feature 1 [0x41, 0x53, 0x53, 0x49, 0x47, 0x4e, 0x5f, 0x4c, 0x4f, 0x4e,
    0x47] 128 64 0x0123456789ABCDEF]) := by decide +kernel
/- "ASSIGN_LONG[191:0] = 192'h0123456789ABCDEFDEADBEEFDEADBEEFAABBCCDDEEFF0011\r\n" -/
example : run false [0x41, 0x53, 0x53, 0x49, 0x47, 0x4e, 0x5f, 0x4c, 0x4f, 0x4e, 0x47, 0x5b, 0x31, 0x39, 0x31, 0x3a,
    0x30, 0x5d, 0x20, 0x3d, 0x20, 0x31, 0x39, 0x32, 0x27, 0x68, 0x30, 0x31, 0x32, 0x33, 0x34, 0x35, 0x36, 0x37, 0x38,
    0x39, 0x41, 0x42, 0x43, 0x44, 0x45, 0x46, 0x44, 0x45, 0x41, 0x44, 0x42, 0x45, 0x45, 0x46, 0x44, 0x45, 0x41, 0x44,
    0x42, 0x45, 0x45, 0x46, 0x41, 0x41, 0x42, 0x42, 0x43, 0x43, 0x44, 0x44, 0x45, 0x45, 0x46, 0x46, 0x30, 0x30, 0x31,
    0x31, 0x0d, 0x0a] = some (.success, [.feature 1 [0x41, 0x53, 0x53, 0x49, 0x47, 0x4e, 0x5f, 0x4c, 0x4f, 0x4e,
    0x47] 0 64 0xAABBCCDDEEFF0011, .feature 1 [0x41, 0x53, 0x53, 0x49, 0x47, 0x4e, 0x5f, 0x4c, 0x4f, 0x4e,
    0x47] 64 64 0xDEADBEEFDEADBEEF, .feature 1 [0x41, 0x53, 0x53, 0x49, 0x47, 0x4e, 0x5f, 0x4c, 0x4f, 0x4e,
    0x47] 128 64 0x0123456789ABCDEF]) := by decide +kernel

/-- The annotations among the calls. -/
def anns (s : Bytes) : Option (Sev × List (Bytes × Bytes)) :=
  (run true s).map fun r => (r.1, r.2.filterMap fun e => match e with
    | .annotation _ _ n v => some (n, v)
    | _ => none)

/- "{ foo = \"bar\", baz = \"quux\" }\n" -/
example : anns [0x7b, 0x20, 0x66, 0x6f, 0x6f, 0x20, 0x3d, 0x20, 0x22, 0x62, 0x61, 0x72, 0x22, 0x2c, 0x20, 0x62, 0x61,
    0x7a, 0x20, 0x3d, 0x20, 0x22, 0x71, 0x75, 0x75, 0x78, 0x22, 0x20, 0x7d, 0x0a] = some (.success, [([0x66, 0x6f,
    0x6f], [0x62, 0x61, 0x72]), ([0x62, 0x61, 0x7a], [0x71, 0x75, 0x75, 0x78])]) := by decide +kernel
/- "SOME_FEATURE = 42 { foo = \"bar\", baz = \"quux\" }\n" -/
example : anns [0x53, 0x4f, 0x4d, 0x45, 0x5f, 0x46, 0x45, 0x41, 0x54, 0x55, 0x52, 0x45, 0x20, 0x3d, 0x20, 0x34, 0x32,
    0x20, 0x7b, 0x20, 0x66, 0x6f, 0x6f, 0x20, 0x3d, 0x20, 0x22, 0x62, 0x61, 0x72, 0x22, 0x2c, 0x20, 0x62, 0x61, 0x7a,
    0x20, 0x3d, 0x20, 0x22, 0x71, 0x75, 0x75, 0x78, 0x22, 0x20, 0x7d, 0x0a] = some (.success, [([0x66, 0x6f, 0x6f],
    [0x62, 0x61, 0x72]), ([0x62, 0x61, 0x7a], [0x71, 0x75, 0x75, 0x78])]) := by decide +kernel
/- "{ .escaped = \"Some quote with \\\"quote\\\"\" }\n" -/
example : anns [0x7b, 0x20, 0x2e, 0x65, 0x73, 0x63, 0x61, 0x70, 0x65, 0x64, 0x20, 0x3d, 0x20, 0x22, 0x53, 0x6f, 0x6d,
    0x65, 0x20, 0x71, 0x75, 0x6f, 0x74, 0x65, 0x20, 0x77, 0x69, 0x74, 0x68, 0x20, 0x5c, 0x22, 0x71, 0x75, 0x6f, 0x74,
    0x65, 0x5c, 0x22, 0x22, 0x20, 0x7d, 0x0a] = some (.success, [([0x2e, 0x65, 0x73, 0x63, 0x61, 0x70, 0x65, 0x64],
    [0x53, 0x6f, 0x6d, 0x65, 0x20, 0x71, 0x75, 0x6f, 0x74, 0x65, 0x20, 0x77, 0x69, 0x74, 0x68, 0x20, 0x5c, 0x22,
    0x71, 0x75, 0x6f, 0x74, 0x65, 0x5c, 0x22])]) := by decide +kernel
/- "{ foo = \"bar\", baz = quux\" }\n" -/
example : anns [0x7b, 0x20, 0x66, 0x6f, 0x6f, 0x20, 0x3d, 0x20, 0x22, 0x62, 0x61, 0x72, 0x22, 0x2c, 0x20, 0x62, 0x61,
    0x7a, 0x20, 0x3d, 0x20, 0x71, 0x75, 0x75, 0x78, 0x22, 0x20, 0x7d, 0x0a] = some (.error, [([0x66, 0x6f, 0x6f],
    [0x62, 0x61, 0x72])]) := by decide +kernel
/- "{ foo = \"bar\"; baz = \"quux\" }\n" -/
example : anns [0x7b, 0x20, 0x66, 0x6f, 0x6f, 0x20, 0x3d, 0x20, 0x22, 0x62, 0x61, 0x72, 0x22, 0x3b, 0x20, 0x62, 0x61,
    0x7a, 0x20, 0x3d, 0x20, 0x22, 0x71, 0x75, 0x75, 0x78, 0x22, 0x20, 0x7d, 0x0a] = some (.error, [([0x66, 0x6f,
    0x6f], [0x62, 0x61, 0x72])]) := by decide +kernel
/- "{ unterminated = \"string }\nNEXT_LINE\n" -/
example : anns [0x7b, 0x20, 0x75, 0x6e, 0x74, 0x65, 0x72, 0x6d, 0x69, 0x6e, 0x61, 0x74, 0x65, 0x64, 0x20, 0x3d, 0x20,
    0x22, 0x73, 0x74, 0x72, 0x69, 0x6e, 0x67, 0x20, 0x7d, 0x0a, 0x4e, 0x45, 0x58, 0x54, 0x5f, 0x4c, 0x49, 0x4e, 0x45,
    0x0a] = some (.error, []) := by decide +kernel
/- "{ line_continuation_is_error = \"string\\\nNEXT_LINE\"\n" -/
example : anns [0x7b, 0x20, 0x6c, 0x69, 0x6e, 0x65, 0x5f, 0x63, 0x6f, 0x6e, 0x74, 0x69, 0x6e, 0x75, 0x61, 0x74, 0x69,
    0x6f, 0x6e, 0x5f, 0x69, 0x73, 0x5f, 0x65, 0x72, 0x72, 0x6f, 0x72, 0x20, 0x3d, 0x20, 0x22, 0x73, 0x74, 0x72, 0x69,
    0x6e, 0x67, 0x5c, 0x0a, 0x4e, 0x45, 0x58, 0x54, 0x5f, 0x4c, 0x49, 0x4e, 0x45, 0x22, 0x0a] = some (.error,
    []) := by decide +kernel
end FasmTests

/-! ## `/repo/fpga/xilinx/arch-xc7-frame_test.cc`, `bit-ops_test.cc`, `big-endian-span_test.cc` -/
section WordTests
open Xc7 BitOps

example : icapCRC 0#32 0#32 0#32 = 0#32 := by decide +kernel
example : icapCRC (1#32 <<< 4) 0#32 0#32 = 0x82F63B78#32 := by decide +kernel
example : icapCRC (~~~0#32) (~~~0#32) 0#32 = 0xBF86D4DF#32 := by decide +kernel
example : icapCRC 0#32 0#32 (~~~0#32) = 0xC631E365#32 := by decide +kernel
example : icapECC 0#32 0#32 0#32 = 0#32 := by decide +kernel
example : icapECC 0#32 1#32 0#32 = 0x1320#32 := by decide +kernel
example : icapECC 7#32 1#32 0#32 = 0x1420#32 := by decide +kernel
example : icapECC 0x26#32 1#32 0#32 = 0x1820#32 := by decide +kernel
example : icapECC 0x32#32 (~~~0#32) 0#32 = 0x19AC#32 := by decide +kernel
example : icapECC 0x64#32 0#32 1#32 = 0x1001#32 := by decide +kernel

example : bitMask 32 0 = 1#32 := by decide +kernel
example : bitMask 32 3 = 8#32 := by decide +kernel
example : bitMaskRange 32 23 23 = 0x800000#32 := by decide +kernel
example : bitMaskRange 32 7 0 = 0xFF#32 := by decide +kernel
example : bitMaskRange 32 18 8 = 0x7FF00#32 := by decide +kernel
example : bitFieldGet 0xFFFFFFFF#32 23 23 = 1#32 := by decide +kernel
example : bitFieldGet 0xFFCCBBAA#32 7 0 = 0xAA#32 := by decide +kernel
example : bitFieldGet 0xFFCCBBAA#32 18 8 = 0x4BB#32 := by decide +kernel
example : bitFieldSet 0#32 23 23 1#32 = 0x800000#32 := by decide +kernel
example : bitFieldSet 0#32 23 23 3#32 = 0x800000#32 := by decide +kernel
example : bitFieldSet 0#32 18 8 0x123#32 = 0x12300#32 := by decide +kernel
example : bitFieldSet 0#32 18 8 0x1234#32 = 0x23400#32 := by decide +kernel

example : beSize [] = 0 := by decide +kernel
example : beSize [0, 1, 2] = 0 := by decide +kernel
example : beSize [0, 1, 2, 3] = 1 ∧ beGet [0, 1, 2, 3] 0 = .ok 0x00010203#32 := by decide +kernel
example : beSize [0, 1, 2, 3, 4, 5, 6, 7] = 2 ∧ beGet [0, 1, 2, 3, 4, 5, 6, 7] 0 = .ok 0x00010203#32 ∧
    beGet [0, 1, 2, 3, 4, 5, 6, 7] 1 = .ok 0x04050607#32 := by decide +kernel
example : bytesOfWord 0x04050607#32 = [4, 5, 6, 7] := by decide +kernel
end WordTests

/-! ## `arch-xc7-configuration-packet_test.cc`, `bitstream-reader-xc7_test.cc`, `bitstream-writer_test.cc` -/
section PacketTests
open Xc7 Packet

example : initWithWords [] none = ([], none) := by decide +kernel
example : initWithWords [0x20000000#32] none = ([], some ⟨1#32, opNOP, regCRC, []⟩) := by decide +kernel
example : initWithWords [0x28004002#32, 0xAA#32, 0xBB#32] none = ([], some ⟨1#32, opRead, regFDRI, [0xAA#32,
    0xBB#32]⟩) := by decide +kernel
example : initWithWords [0x30006002#32, 0xAA#32, 0xBB#32] none = ([], some ⟨1#32, opWrite, 3#32, [0xAA#32,
    0xBB#32]⟩) := by decide +kernel
example : initWithWords [0x4800000C#32] none = ([0x4800000C#32], none) := by decide +kernel
example : initWithWords [0x4800000C#32, 0x1#32, 0x2#32, 0x3#32, 0x4#32, 0x5#32, 0x6#32, 0x7#32, 0x8#32, 0x9#32,
    0xA#32, 0xB#32, 0xC#32] (some ⟨1#32, opRead, 0xA#32, []⟩) = ([], some ⟨2#32, opRead, 0xA#32, [0x1#32, 0x2#32,
    0x3#32, 0x4#32, 0x5#32, 0x6#32, 0x7#32, 0x8#32, 0x9#32, 0xA#32, 0xB#32, 0xC#32]⟩) := by decide +kernel

/-- Packets a reader over a byte string yields. -/
def readAll (bytes : Bytes) : Option (Option (List Packet)) :=
  match initWithBytes bytes with
  | .ok (some ws) => match readPackets 50 ws with
    | some (.ok ps) => some (some ps)
    | _ => none
  | .ok none => some none
  | _ => none

example : readAll [] = some none := by decide +kernel
example : (readAll [0xAA, 0x99, 0x55, 0x66]).join.isSome := by decide +kernel
example : (readAll [0xFF, 0xFE, 0xAA, 0x99, 0x55, 0x66]).join.isSome := by decide +kernel
example : (readAll [0xFF, 0xFE, 0xFD, 0xFC, 0xAA, 0x99, 0x55, 0x66]).join.isSome := by decide +kernel
example : readAll [0xAA, 0x99, 0x55, 0x66, 0x20, 0, 0, 0] = some (some [⟨1#32, opNOP, regCRC,
    []⟩]) := by decide +kernel
example : readAll [0xAA, 0x99, 0x55, 0x66, 0x40, 0, 0, 0] = some (some []) := by decide +kernel
example : readAll [0xAA, 0x99, 0x55, 0x66, 0x28, 0, 0x60, 0, 0x48, 0, 0, 4, 1, 2, 3, 4, 5, 6, 7, 8, 9, 0xA, 0xB, 0xC,
    0xD, 0xE, 0xF, 0x10] =
    some (some [⟨1#32, opRead, 3#32, []⟩, ⟨2#32, opRead, 3#32, [0x01020304#32, 0x05060708#32, 0x090A0B0C#32,
    0x0D0E0F10#32]⟩]) := by decide +kernel

example : writerWords .xc7 [] 60 = some (.ok [0xFFFFFFFF#32, 0xFFFFFFFF#32, 0xFFFFFFFF#32, 0xFFFFFFFF#32,
    0xFFFFFFFF#32, 0xFFFFFFFF#32, 0xFFFFFFFF#32, 0xFFFFFFFF#32, 0xBB#32, 0x11220044#32, 0xFFFFFFFF#32, 0xFFFFFFFF#32,
    0xAA995566#32]) := by decide +kernel
example : writerWords .xc7 [⟨0#32, opNOP, regCRC, []⟩] 60 = some (.ok [0xFFFFFFFF#32, 0xFFFFFFFF#32, 0xFFFFFFFF#32,
    0xFFFFFFFF#32, 0xFFFFFFFF#32, 0xFFFFFFFF#32, 0xFFFFFFFF#32, 0xFFFFFFFF#32, 0xBB#32, 0x11220044#32, 0xFFFFFFFF#32,
    0xFFFFFFFF#32, 0xAA995566#32, 0x0#32]) := by decide +kernel
example : writerWords .xc7 [⟨1#32, opWrite, 3#32, [0xAA#32, 0xBB#32]⟩] 60 = some (.ok [0xFFFFFFFF#32, 0xFFFFFFFF#32,
    0xFFFFFFFF#32, 0xFFFFFFFF#32, 0xFFFFFFFF#32, 0xFFFFFFFF#32, 0xFFFFFFFF#32, 0xFFFFFFFF#32, 0xBB#32, 0x11220044#32,
    0xFFFFFFFF#32, 0xFFFFFFFF#32, 0xAA995566#32, 0x30006002#32, 0xAA#32, 0xBB#32]) := by decide +kernel
example : writerWords .xc7 [⟨1#32, opWrite, 3#32, []⟩, ⟨2#32, opRead, 3#32, [0x1#32, 0x2#32, 0x3#32, 0x4#32, 0x5#32,
    0x6#32, 0x7#32, 0x8#32, 0x9#32, 0xA#32, 0xB#32, 0xC#32]⟩] 60 = some (.ok [0xFFFFFFFF#32, 0xFFFFFFFF#32,
    0xFFFFFFFF#32, 0xFFFFFFFF#32, 0xFFFFFFFF#32, 0xFFFFFFFF#32, 0xFFFFFFFF#32, 0xFFFFFFFF#32, 0xBB#32, 0x11220044#32,
    0xFFFFFFFF#32, 0xFFFFFFFF#32, 0xAA995566#32, 0x30006000#32, 0x4800000C#32, 0x1#32, 0x2#32, 0x3#32, 0x4#32,
    0x5#32, 0x6#32, 0x7#32, 0x8#32, 0x9#32, 0xA#32, 0xB#32, 0xC#32]) := by decide +kernel
example : writerWords .xc7 [⟨1#32, opWrite, 3#32, [0xAA#32, 0xBB#32]⟩, ⟨1#32, opWrite, 3#32, []⟩, ⟨1#32, opWrite,
    3#32, []⟩, ⟨2#32, opRead, 3#32, [0x1#32, 0x2#32, 0x3#32, 0x4#32, 0x5#32, 0x6#32, 0x7#32, 0x8#32, 0x9#32, 0xA#32,
    0xB#32, 0xC#32]⟩, ⟨1#32, opWrite, 3#32, []⟩] 60 = some (.ok [0xFFFFFFFF#32, 0xFFFFFFFF#32, 0xFFFFFFFF#32,
    0xFFFFFFFF#32, 0xFFFFFFFF#32, 0xFFFFFFFF#32, 0xFFFFFFFF#32, 0xFFFFFFFF#32, 0xBB#32, 0x11220044#32, 0xFFFFFFFF#32,
    0xFFFFFFFF#32, 0xAA995566#32, 0x30006002#32, 0xAA#32, 0xBB#32, 0x30006000#32, 0x30006000#32, 0x4800000C#32,
    0x1#32, 0x2#32, 0x3#32, 0x4#32, 0x5#32, 0x6#32, 0x7#32, 0x8#32, 0x9#32, 0xA#32, 0xB#32, 0xC#32,
    0x30006000#32]) := by decide +kernel
end PacketTests

/-! ## `arch-xc7-part_test.cc` -/
section PartTests
open Xc7 Xc7.FrameAddress

/-- Insertion into a list sorted by a key. -/
def ins (key : FrameAddress → Nat) (a : FrameAddress) : List FrameAddress → List FrameAddress
  | [] => [a]
  | b :: l => if key a ≤ key b then a :: b :: l else b :: ins key a l

/-- Concrete sorting and partitioning (both meet the contracts of the standard). -/
def alg : Algorithms := { sort := fun key l => l.foldr (ins key) [], partition := fun l => (l.filter isBottom,
    l.filter fun a => !isBottom a) }

/-- The value of a successful construction. -/
def val {α : Type} (d : α) : Outcome α → α
  | .ok a => a
  | _ => d

/-- The addresses of the test. -/
def busTL : List FrameAddress := [(make kBlockRam false 0 0 0), (make kBlockRam false 0 0 1),
    (make kBlockRam false 0 1 0), (make kBlockRam false 0 1 1)]
/-- What the constructor makes of them. -/
def busT : Bus := val [] (busOfList alg busTL)
/-- The addresses of the test. -/
def rowTL : List FrameAddress := [(make kCLBIOCLK false 0 0 0), (make kCLBIOCLK false 0 0 1),
    (make kCLBIOCLK false 0 1 0), (make kCLBIOCLK false 0 1 1), (make kBlockRam false 0 0 0),
    (make kBlockRam false 0 0 1), (make kBlockRam false 0 0 2)]
/-- What the constructor makes of them. -/
def rowT : Row := val [] (rowOfList alg rowTL)
/-- The addresses of the test. -/
def regTL : List FrameAddress := [(make kCLBIOCLK false 0 0 0), (make kCLBIOCLK false 0 0 1),
    (make kCLBIOCLK false 0 1 0), (make kCLBIOCLK false 0 1 1), (make kBlockRam false 0 0 0),
    (make kBlockRam false 0 0 1), (make kBlockRam false 0 0 2), (make kCLBIOCLK false 1 0 0),
    (make kCLBIOCLK false 1 0 1)]
/-- What the constructor makes of them. -/
def regT : Region := val [] (regionOfList alg regTL)
/-- The addresses of the test. -/
def partTL : List FrameAddress := [(make kCLBIOCLK false 0 0 0), (make kCLBIOCLK false 0 0 1),
    (make kCLBIOCLK false 0 1 0), (make kCLBIOCLK false 0 1 1), (make kBlockRam false 0 0 0),
    (make kBlockRam false 0 0 1), (make kBlockRam false 0 0 2), (make kCLBIOCLK false 1 0 0),
    (make kCLBIOCLK false 1 0 1), (make kCLBIOCLK true 0 0 0), (make kCLBIOCLK true 0 0 1)]
/-- What the constructor makes of them. -/
def partT : Xc7.Part := val ⟨0#32, [], []⟩ (Part.ofList alg 0x1234#32 partTL)
example : (⟨10⟩ : Column).isValid (make kCLBIOCLK false 1 2 3) = true := by decide +kernel
example : (⟨10⟩ : Column).isValid (make kCLBIOCLK false 1 2 10) = false := by decide +kernel
example : (⟨10⟩ : Column).next (make kCLBIOCLK false 1 2 3) = some (make kCLBIOCLK false 1 2 4) := by decide +kernel
example : (⟨10⟩ : Column).next (make kCLBIOCLK false 1 2 9) = none := by decide +kernel
example : (⟨10⟩ : Column).next (make kCLBIOCLK false 1 2 10) = none := by decide +kernel
example : busIsValid busT (make kBlockRam false 0 0 0) = true := by decide +kernel
example : busIsValid busT (make kBlockRam false 0 1 1) = true := by decide +kernel
example : busIsValid busT (make kBlockRam false 0 0 2) = false := by decide +kernel
example : busNext busT (make kBlockRam false 0 0 0) = some (make kBlockRam false 0 0 1) := by decide +kernel
example : busNext busT (make kBlockRam false 0 0 1) = some (make kBlockRam false 0 1 0) := by decide +kernel
example : busNext busT (make kBlockRam false 0 1 1) = none := by decide +kernel
example : rowIsValid rowT (make kCLBIOCLK false 0 0 0) = true := by decide +kernel
example : rowIsValid rowT (make kCLBIOCLK false 0 1 0) = true := by decide +kernel
example : rowIsValid rowT (make kBlockRam false 0 0 2) = true := by decide +kernel
example : rowIsValid rowT (make kCLBIOCLK false 0 0 2) = false := by decide +kernel
example : rowIsValid rowT (make kCLBIOCLK false 0 2 0) = false := by decide +kernel
example : rowNext rowT (make kCLBIOCLK false 0 0 0) = some (make kCLBIOCLK false 0 0 1) := by decide +kernel
example : rowNext rowT (make kCLBIOCLK false 0 0 1) = some (make kCLBIOCLK false 0 1 0) := by decide +kernel
example : rowNext rowT (make kCLBIOCLK false 0 1 1) = none := by decide +kernel
example : rowNext rowT (make kBlockRam false 0 0 1) = some (make kBlockRam false 0 0 2) := by decide +kernel
example : rowNext rowT (make kBlockRam false 0 0 2) = none := by decide +kernel
example : regionIsValid regT (make kCLBIOCLK false 0 0 0) = true := by decide +kernel
example : regionIsValid regT (make kCLBIOCLK false 0 1 0) = true := by decide +kernel
example : regionIsValid regT (make kBlockRam false 0 0 2) = true := by decide +kernel
example : regionIsValid regT (make kCLBIOCLK false 1 0 0) = true := by decide +kernel
example : regionIsValid regT (make kCLBIOCLK false 0 0 2) = false := by decide +kernel
example : regionIsValid regT (make kCLBIOCLK false 0 2 0) = false := by decide +kernel
example : regionIsValid regT (make kCLBIOCLK false 2 0 0) = false := by decide +kernel
example : regionIsValid regT (make kCFGCLB false 0 0 2) = false := by decide +kernel
example : regionNext regT (make kCLBIOCLK false 0 0 0) = some (make kCLBIOCLK false 0 0 1) := by decide +kernel
example : regionNext regT (make kCLBIOCLK false 0 0 1) = some (make kCLBIOCLK false 0 1 0) := by decide +kernel
example : regionNext regT (make kCLBIOCLK false 0 1 1) = some (make kCLBIOCLK false 1 0 0) := by decide +kernel
example : regionNext regT (make kBlockRam false 0 0 1) = some (make kBlockRam false 0 0 2) := by decide +kernel
example : regionNext regT (make kCLBIOCLK false 1 0 1) = none := by decide +kernel
example : regionNext regT (make kBlockRam false 0 0 2) = none := by decide +kernel
example : partT.isValid (make kCLBIOCLK false 0 0 0) = true := by decide +kernel
example : partT.isValid (make kCLBIOCLK false 0 1 0) = true := by decide +kernel
example : partT.isValid (make kBlockRam false 0 0 2) = true := by decide +kernel
example : partT.isValid (make kCLBIOCLK false 1 0 0) = true := by decide +kernel
example : partT.isValid (make kCLBIOCLK true 0 0 0) = true := by decide +kernel
example : partT.isValid (make kCLBIOCLK false 0 0 2) = false := by decide +kernel
example : partT.isValid (make kCLBIOCLK false 0 2 0) = false := by decide +kernel
example : partT.isValid (make kCLBIOCLK false 2 0 0) = false := by decide +kernel
example : partT.isValid (make kCFGCLB false 0 0 2) = false := by decide +kernel
example : partT.isValid (make kCLBIOCLK true 0 1 0) = false := by decide +kernel
example : partT.next (make kCLBIOCLK false 0 0 0) = some (make kCLBIOCLK false 0 0 1) := by decide +kernel
example : partT.next (make kCLBIOCLK false 0 0 1) = some (make kCLBIOCLK false 0 1 0) := by decide +kernel
example : partT.next (make kCLBIOCLK false 0 1 1) = some (make kCLBIOCLK false 1 0 0) := by decide +kernel
example : partT.next (make kCLBIOCLK false 1 0 1) = some (make kCLBIOCLK true 0 0 0) := by decide +kernel
example : partT.next (make kCLBIOCLK true 0 0 1) = some (make kBlockRam false 0 0 0) := by decide +kernel
example : partT.next (make kBlockRam false 0 0 2) = none := by decide +kernel
end PartTests

/-! ## `frames-xc7_test.cc`, `configuration-xc7_test.cc` (the cases without data files) -/
section ConfigTests
open Xc7 Xc7.FrameAddress Xc7.Packet

/-- A part made from a list of addresses. -/
def part1234 (l : List FrameAddress) : Xc7.Part := val ⟨0#32, [], []⟩ (Part.ofList alg 0x1234#32 l)

/-- The packets of the configuration tests. -/
def testPackets (far : Word) (data : List Word) : List Packet :=
  [⟨1#32, opWrite, regIDCODE, [0x1234#32]⟩, ⟨1#32, opWrite, regFAR, [far]⟩, ⟨1#32, opWrite, regCMD, [1#32]⟩,
   ⟨1#32, opWrite, regFDRI, data⟩]

/- FillInMissingFrames (frames stand for their fill value) -/
example : addMissingFrames (part1234 [make kCLBIOCLK false 0 0 0, make kCLBIOCLK false 0 0 1,
    make kCLBIOCLK false 0 0 2,
      make kCLBIOCLK false 0 0 3, make kCLBIOCLK false 0 0 4]) 0 10 [(2, 0xCC), (3, 0xDD), (4, 0xEE)] =
    some [(0, 0), (1, 0), (2, 0xCC), (3, 0xDD), (4, 0xEE)] := by decide +kernel
/- ConstructFromPacketsWithSingleFrame -/
example : (initWithPackets 101 (part1234 [0x4567#32,
    0x4568#32]) (testPackets 0x4567#32 (List.replicate 101 0xAA#32))).map
      (fun c => (c.part.idcode, c.frames)) = some (0x1234#32, [(0x4567,
    List.replicate 101 0xAA#32)]) := by decide +kernel
/- ConstructFromPacketsWithAutoincrement -/
example : (initWithPackets 101 (part1234 ((List.range 16).map (fun i => BitVec.ofNat 32 (0x4560 + i)) ++
        (List.range 16).map (fun i => BitVec.ofNat 32 (0x4580 + i))))
      (testPackets 0x456F#32 (List.replicate 101 0xAA#32 ++ List.replicate 101 0xBB#32))).map
      (fun c => (c.part.idcode, c.frames)) =
    some (0x1234#32, [(0x456F, List.replicate 101 0xAA#32), (0x4580,
    List.replicate 101 0xBB#32)]) := by decide +kernel
/-- The addresses of `CheckForPaddingFrames`. -/
def padL : List FrameAddress := [make kCLBIOCLK false 0 0 0, make kCLBIOCLK true 0 0 0, make kCLBIOCLK true 1 0 0,
  make kBlockRam false 0 0 0, make kBlockRam false 1 0 0]
/-- A frame filled with one value, one word long (the payload function is generic in the length). -/
def fill1 (w : Word) : FrameWords 1 := Vector.replicate 1 w
/-- The frames of `CheckForPaddingFrames`, shortened to one word each. -/
def padFrames : BMap (FrameWords 1) :=
  (padL.zip [0xAA#32, 0xBB#32, 0xCC#32, 0xDD#32, 0xEE#32]).map fun e => (e.1.toNat, fill1 e.2)
/- CheckForPaddingFrames: fifteen frames, and decoding gives the five back -/
example : (type2Payload (part1234 padL) padFrames).length = 15 * 1 := by decide +kernel
example : (initWithPackets 1 (part1234 padL) (testPackets 0#32 (type2Payload (part1234 padL) padFrames))).map (fun c => c.frames) =
    some (padFrames.map fun e => (e.1, e.2.toList)) := by decide +kernel
end ConfigTests

/-! ## `/repo/fpga/database-parsers_test.cc`, `database_test.cc`

The texts are C string literals: the byte behind the last one is the terminating NUL. -/
section DbTests
open Db

/- "Palways" -/
example : parsePseudoPIPs (some 0) [0x50, 0x61, 0x6c, 0x77, 0x61, 0x79, 0x73] = .err := by decide +kernel
/- "P    always" -/
example : parsePseudoPIPs (some 0) [0x50, 0x20, 0x20, 0x20, 0x20, 0x61, 0x6c, 0x77, 0x61, 0x79, 0x73] = .ok [([0x50],
    .always)] := by decide +kernel
/- "P  always   \n" -/
example : parsePseudoPIPs (some 0) [0x50, 0x20, 0x20, 0x61, 0x6c, 0x77, 0x61, 0x79, 0x73, 0x20, 0x20, 0x20,
    0x0a] = .ok [([0x50], .always)] := by decide +kernel
/- "P always" -/
example : parsePseudoPIPs (some 0) [0x50, 0x20, 0x61, 0x6c, 0x77, 0x61, 0x79, 0x73] = .ok [([0x50],
    .always)] := by decide +kernel
/- "P default" -/
example : parsePseudoPIPs (some 0) [0x50, 0x20, 0x64, 0x65, 0x66, 0x61, 0x75, 0x6c, 0x74] = .ok [([0x50],
    .default)] := by decide +kernel
/- "P hint" -/
example : parsePseudoPIPs (some 0) [0x50, 0x20, 0x68, 0x69, 0x6e, 0x74] = .ok [([0x50], .hint)] := by decide +kernel
/- "P  always   \n  A   default \n" -/
example : parsePseudoPIPs (some 0) [0x50, 0x20, 0x20, 0x61, 0x6c, 0x77, 0x61, 0x79, 0x73, 0x20, 0x20, 0x20, 0x0a,
    0x20, 0x20, 0x41, 0x20, 0x20, 0x20, 0x64, 0x65, 0x66, 0x61, 0x75, 0x6c, 0x74, 0x20, 0x0a] = .ok [([0x50],
    .always), ([0x41], .default)] := by decide +kernel
/- "FOO 28_519 !29_519" -/
example : parseSegmentsBits (fun _ => 0) (some 0) [0x46, 0x4f, 0x4f, 0x20, 0x32, 0x38, 0x5f, 0x35, 0x31, 0x39, 0x20,
    0x21, 0x32, 0x39, 0x5f, 0x35, 0x31, 0x39] = .ok [(([0x46, 0x4f, 0x4f], 0), [⟨28, 519, true⟩, ⟨29, 519,
    false⟩])] := by decide +kernel
/- "BAR !1_23" -/
example : parseSegmentsBits (fun _ => 0) (some 0) [0x42, 0x41, 0x52, 0x20, 0x21, 0x31, 0x5f, 0x32,
    0x33] = .ok [(([0x42, 0x41, 0x52], 0), [⟨1, 23, false⟩])] := by decide +kernel
/- "\n BAZ  42_42 33_93\n QUX !0_1 \n  " -/
example : parseSegmentsBits (fun _ => 0) (some 0) [0x0a, 0x20, 0x42, 0x41, 0x5a, 0x20, 0x20, 0x34, 0x32, 0x5f, 0x34,
    0x32, 0x20, 0x33, 0x33, 0x5f, 0x39, 0x33, 0x0a, 0x20, 0x51, 0x55, 0x58, 0x20, 0x21, 0x30, 0x5f, 0x31, 0x20, 0x0a,
    0x20, 0x20] = .ok [(([0x42, 0x41, 0x5a], 0), [⟨42, 42, true⟩, ⟨33, 93, true⟩]), (([0x51, 0x55, 0x58], 0), [⟨0, 1,
    false⟩])] := by decide +kernel
/- "BAR[0] !1_23" -/
example : parseSegmentsBits (fun _ => 0) (some 0) [0x42, 0x41, 0x52, 0x5b, 0x30, 0x5d, 0x20, 0x21, 0x31, 0x5f, 0x32,
    0x33] = .ok [(([0x42, 0x41, 0x52], 0), [⟨1, 23, false⟩])] := by decide +kernel
/- "BAR[1] !1_23" -/
example : parseSegmentsBits (fun _ => 0) (some 0) [0x42, 0x41, 0x52, 0x5b, 0x31, 0x5d, 0x20, 0x21, 0x31, 0x5f, 0x32,
    0x33] = .ok [(([0x42, 0x41, 0x52], 1), [⟨1, 23, false⟩])] := by decide +kernel
/- "BAR[002] !1_23" -/
example : parseSegmentsBits (fun _ => 0) (some 0) [0x42, 0x41, 0x52, 0x5b, 0x30, 0x30, 0x32, 0x5d, 0x20, 0x21, 0x31,
    0x5f, 0x32, 0x33] = .ok [(([0x42, 0x41, 0x52], 2), [⟨1, 23, false⟩])] := by decide +kernel
/- "BAR[200] !1_23" -/
example : parseSegmentsBits (fun _ => 0) (some 0) [0x42, 0x41, 0x52, 0x5b, 0x32, 0x30, 0x30, 0x5d, 0x20, 0x21, 0x31,
    0x5f, 0x32, 0x33] = .ok [(([0x42, 0x41, 0x52], 200), [⟨1, 23, false⟩])] := by decide +kernel
/- "pin,bank,site,tile,pin_function\nA1,35,IOB_X1Y81,RIOB33_X43Y81,IO_L9N_T1_DQS_AD7N_35" -/
example : parsePackagePins (some 0) [0x70, 0x69, 0x6e, 0x2c, 0x62, 0x61, 0x6e, 0x6b, 0x2c, 0x73, 0x69, 0x74, 0x65,
    0x2c, 0x74, 0x69, 0x6c, 0x65, 0x2c, 0x70, 0x69, 0x6e, 0x5f, 0x66, 0x75, 0x6e, 0x63, 0x74, 0x69, 0x6f, 0x6e, 0x0a,
    0x41, 0x31, 0x2c, 0x33, 0x35, 0x2c, 0x49, 0x4f, 0x42, 0x5f, 0x58, 0x31, 0x59, 0x38, 0x31, 0x2c, 0x52, 0x49, 0x4f,
    0x42, 0x33, 0x33, 0x5f, 0x58, 0x34, 0x33, 0x59, 0x38, 0x31, 0x2c, 0x49, 0x4f, 0x5f, 0x4c, 0x39, 0x4e, 0x5f, 0x54,
    0x31, 0x5f, 0x44, 0x51, 0x53, 0x5f, 0x41, 0x44, 0x37, 0x4e, 0x5f, 0x33, 0x35] = .ok [⟨[0x41, 0x31], 35, [0x49,
    0x4f, 0x42, 0x5f, 0x58, 0x31, 0x59, 0x38, 0x31], [0x52, 0x49, 0x4f, 0x42, 0x33, 0x33, 0x5f, 0x58, 0x34, 0x33,
    0x59, 0x38, 0x31], [0x49, 0x4f, 0x5f, 0x4c, 0x39, 0x4e, 0x5f, 0x54, 0x31, 0x5f, 0x44, 0x51, 0x53, 0x5f, 0x41,
    0x44, 0x37, 0x4e, 0x5f, 0x33, 0x35]⟩] := by decide +kernel
/- "\nA1,35,IOB_X1Y81,RIOB33_X43Y81,IO_L9N_T1_DQS_AD7N_35" -/
example : parsePackagePins (some 0) [0x0a, 0x41, 0x31, 0x2c, 0x33, 0x35, 0x2c, 0x49, 0x4f, 0x42, 0x5f, 0x58, 0x31,
    0x59, 0x38, 0x31, 0x2c, 0x52, 0x49, 0x4f, 0x42, 0x33, 0x33, 0x5f, 0x58, 0x34, 0x33, 0x59, 0x38, 0x31, 0x2c, 0x49,
    0x4f, 0x5f, 0x4c, 0x39, 0x4e, 0x5f, 0x54, 0x31, 0x5f, 0x44, 0x51, 0x53, 0x5f, 0x41, 0x44, 0x37, 0x4e, 0x5f, 0x33,
    0x35] = .err := by decide +kernel
/- "pin,bank,site,tile,pin_function\nA1,35,IOB_X1Y81,IO_L9N_T1_DQS_AD7N_35" -/
example : parsePackagePins (some 0) [0x70, 0x69, 0x6e, 0x2c, 0x62, 0x61, 0x6e, 0x6b, 0x2c, 0x73, 0x69, 0x74, 0x65,
    0x2c, 0x74, 0x69, 0x6c, 0x65, 0x2c, 0x70, 0x69, 0x6e, 0x5f, 0x66, 0x75, 0x6e, 0x63, 0x74, 0x69, 0x6f, 0x6e, 0x0a,
    0x41, 0x31, 0x2c, 0x33, 0x35, 0x2c, 0x49, 0x4f, 0x42, 0x5f, 0x58, 0x31, 0x59, 0x38, 0x31, 0x2c, 0x49, 0x4f, 0x5f,
    0x4c, 0x39, 0x4e, 0x5f, 0x54, 0x31, 0x5f, 0x44, 0x51, 0x53, 0x5f, 0x41, 0x44, 0x37, 0x4e, 0x5f, 0x33,
    0x35] = .err := by decide +kernel
/- "pin,bank,site,tile,pin_function\nA1,35,IOB_X1Y81,RIOB33_X43Y81,  IO_L9N_T1_DQS_AD7N_35\n\nN6,  34,IOB_X1Y13,RIOB33_X43Y13,IO_L18N_T2_34\n" -/
example : parsePackagePins (some 0) [0x70, 0x69, 0x6e, 0x2c, 0x62, 0x61, 0x6e, 0x6b, 0x2c, 0x73, 0x69, 0x74, 0x65,
    0x2c, 0x74, 0x69, 0x6c, 0x65, 0x2c, 0x70, 0x69, 0x6e, 0x5f, 0x66, 0x75, 0x6e, 0x63, 0x74, 0x69, 0x6f, 0x6e, 0x0a,
    0x41, 0x31, 0x2c, 0x33, 0x35, 0x2c, 0x49, 0x4f, 0x42, 0x5f, 0x58, 0x31, 0x59, 0x38, 0x31, 0x2c, 0x52, 0x49, 0x4f,
    0x42, 0x33, 0x33, 0x5f, 0x58, 0x34, 0x33, 0x59, 0x38, 0x31, 0x2c, 0x20, 0x20, 0x49, 0x4f, 0x5f, 0x4c, 0x39, 0x4e,
    0x5f, 0x54, 0x31, 0x5f, 0x44, 0x51, 0x53, 0x5f, 0x41, 0x44, 0x37, 0x4e, 0x5f, 0x33, 0x35, 0x0a, 0x0a, 0x4e, 0x36,
    0x2c, 0x20, 0x20, 0x33, 0x34, 0x2c, 0x49, 0x4f, 0x42, 0x5f, 0x58, 0x31, 0x59, 0x31, 0x33, 0x2c, 0x52, 0x49, 0x4f,
    0x42, 0x33, 0x33, 0x5f, 0x58, 0x34, 0x33, 0x59, 0x31, 0x33, 0x2c, 0x49, 0x4f, 0x5f, 0x4c, 0x31, 0x38, 0x4e, 0x5f,
    0x54, 0x32, 0x5f, 0x33, 0x34, 0x0a] = .ok [⟨[0x41, 0x31], 35, [0x49, 0x4f, 0x42, 0x5f, 0x58, 0x31, 0x59, 0x38,
    0x31], [0x52, 0x49, 0x4f, 0x42, 0x33, 0x33, 0x5f, 0x58, 0x34, 0x33, 0x59, 0x38, 0x31], [0x49, 0x4f, 0x5f, 0x4c,
    0x39, 0x4e, 0x5f, 0x54, 0x31, 0x5f, 0x44, 0x51, 0x53, 0x5f, 0x41, 0x44, 0x37, 0x4e, 0x5f, 0x33, 0x35]⟩, ⟨[0x4e,
    0x36], 34, [0x49, 0x4f, 0x42, 0x5f, 0x58, 0x31, 0x59, 0x31, 0x33], [0x52, 0x49, 0x4f, 0x42, 0x33, 0x33, 0x5f,
    0x58, 0x34, 0x33, 0x59, 0x31, 0x33], [0x49, 0x4f, 0x5f, 0x4c, 0x31, 0x38, 0x4e, 0x5f, 0x54, 0x32, 0x5f, 0x33,
    0x34]⟩] := by decide +kernel
/-- `kSampleTileGridJSON` as a JSON value. -/
def sampleGrid : Json := .obj [([0x54, 0x49, 0x4c, 0x45, 0x5f, 0x41], .obj [([0x62, 0x69, 0x74, 0x73], .obj [([0x43,
    0x4c, 0x42, 0x5f, 0x49, 0x4f, 0x5f, 0x43, 0x4c, 0x4b], .obj [([0x61, 0x6c, 0x69, 0x61, 0x73], .obj [([0x73, 0x69,
    0x74, 0x65, 0x73], .obj []), ([0x73, 0x74, 0x61, 0x72, 0x74, 0x5f, 0x6f, 0x66, 0x66, 0x73, 0x65, 0x74], .int 0),
    ([0x74, 0x79, 0x70, 0x65], .str [0x48, 0x43, 0x4c, 0x4b, 0x5f, 0x4c])]), ([0x62, 0x61, 0x73, 0x65, 0x61, 0x64,
    0x64, 0x72], .str [0x30, 0x78, 0x30, 0x30, 0x30, 0x32, 0x30, 0x45, 0x30, 0x30]), ([0x66, 0x72, 0x61, 0x6d, 0x65,
    0x73], .int 26), ([0x6f, 0x66, 0x66, 0x73, 0x65, 0x74], .int 50), ([0x77, 0x6f, 0x72, 0x64, 0x73], .int 1)])]),
    ([0x67, 0x72, 0x69, 0x64, 0x5f, 0x78], .int 72), ([0x67, 0x72, 0x69, 0x64, 0x5f, 0x79], .int 26), ([0x70, 0x69,
    0x6e, 0x5f, 0x66, 0x75, 0x6e, 0x63, 0x74, 0x69, 0x6f, 0x6e, 0x73], .obj []), ([0x70, 0x72, 0x6f, 0x68, 0x69,
    0x62, 0x69, 0x74, 0x65, 0x64, 0x5f, 0x73, 0x69, 0x74, 0x65, 0x73], .arr []), ([0x73, 0x69, 0x74, 0x65, 0x73],
    .obj []), ([0x74, 0x79, 0x70, 0x65], .str [0x48, 0x43, 0x4c, 0x4b, 0x5f, 0x4c, 0x5f, 0x42, 0x4f, 0x54, 0x5f,
    0x55, 0x54, 0x55, 0x52, 0x4e])]), ([0x54, 0x49, 0x4c, 0x45, 0x5f, 0x42], .obj [([0x62, 0x69, 0x74, 0x73],
    .obj [([0x43, 0x4c, 0x42, 0x5f, 0x49, 0x4f, 0x5f, 0x43, 0x4c, 0x4b], .obj [([0x61, 0x6c, 0x69, 0x61, 0x73],
    .obj [([0x73, 0x69, 0x74, 0x65, 0x73], .obj [([0x49, 0x4f, 0x42, 0x33, 0x33, 0x5f, 0x59, 0x30], .str [0x49, 0x4f,
    0x42, 0x33, 0x33, 0x5f, 0x59, 0x30])]), ([0x73, 0x74, 0x61, 0x72, 0x74, 0x5f, 0x6f, 0x66, 0x66, 0x73, 0x65,
    0x74], .int 2), ([0x74, 0x79, 0x70, 0x65], .str [0x4c, 0x49, 0x4f, 0x42, 0x33, 0x33])]), ([0x62, 0x61, 0x73,
    0x65, 0x61, 0x64, 0x64, 0x72], .str [0x30, 0x78, 0x30, 0x30, 0x34, 0x30, 0x30, 0x30, 0x30, 0x30]), ([0x66, 0x72,
    0x61, 0x6d, 0x65, 0x73], .int 42), ([0x6f, 0x66, 0x66, 0x73, 0x65, 0x74], .int 0), ([0x77, 0x6f, 0x72, 0x64,
    0x73], .int 2)])]), ([0x63, 0x6c, 0x6f, 0x63, 0x6b, 0x5f, 0x72, 0x65, 0x67, 0x69, 0x6f, 0x6e], .str [0x58, 0x30,
    0x59, 0x30]), ([0x67, 0x72, 0x69, 0x64, 0x5f, 0x78], .int 0), ([0x67, 0x72, 0x69, 0x64, 0x5f, 0x79], .int 155),
    ([0x70, 0x69, 0x6e, 0x5f, 0x66, 0x75, 0x6e, 0x63, 0x74, 0x69, 0x6f, 0x6e, 0x73], .obj [([0x49, 0x4f, 0x42, 0x5f,
    0x58, 0x30, 0x59, 0x30], .str [0x49, 0x4f, 0x5f, 0x32, 0x35, 0x5f, 0x31, 0x34])]), ([0x70, 0x72, 0x6f, 0x68,
    0x69, 0x62, 0x69, 0x74, 0x65, 0x64, 0x5f, 0x73, 0x69, 0x74, 0x65, 0x73], .arr []), ([0x73, 0x69, 0x74, 0x65,
    0x73], .obj [([0x49, 0x4f, 0x42, 0x5f, 0x58, 0x30, 0x59, 0x30], .str [0x49, 0x4f, 0x42, 0x33, 0x33])]), ([0x74,
    0x79, 0x70, 0x65], .str [0x4c, 0x49, 0x4f, 0x42, 0x33, 0x33, 0x5f, 0x53, 0x49, 0x4e, 0x47])])]
example : parseTileGrid sampleGrid = .ok [([0x54, 0x49, 0x4c, 0x45, 0x5f, 0x41], ⟨[0x48, 0x43, 0x4c, 0x4b, 0x5f,
    0x4c, 0x5f, 0x42, 0x4f, 0x54, 0x5f, 0x55, 0x54, 0x55, 0x52, 0x4e], 72, 26, none, [(.clbIoClk, ⟨some ⟨[], 0,
    [0x48, 0x43, 0x4c, 0x4b, 0x5f, 0x4c]⟩, 134656, 26, 50, 1⟩)], [], [], []⟩), ([0x54, 0x49, 0x4c, 0x45, 0x5f, 0x42],
    ⟨[0x4c, 0x49, 0x4f, 0x42, 0x33, 0x33, 0x5f, 0x53, 0x49, 0x4e, 0x47], 0, 155, some [0x58, 0x30, 0x59, 0x30],
    [(.clbIoClk, ⟨some ⟨[([0x49, 0x4f, 0x42, 0x33, 0x33, 0x5f, 0x59, 0x30], [0x49, 0x4f, 0x42, 0x33, 0x33, 0x5f,
    0x59, 0x30])], 2, [0x4c, 0x49, 0x4f, 0x42, 0x33, 0x33]⟩, 4194304, 42, 0, 2⟩)], [([0x49, 0x4f, 0x42, 0x5f, 0x58,
    0x30, 0x59, 0x30], [0x49, 0x4f, 0x5f, 0x32, 0x35, 0x5f, 0x31, 0x34])], [([0x49, 0x4f, 0x42, 0x5f, 0x58, 0x30,
    0x59, 0x30], [0x49, 0x4f, 0x42, 0x33, 0x33])], []⟩)] := by decide +kernel
/- `EmptyTileGrid`: the inputs that are JSON values but not grids -/
example : parseTileGrid (.arr []) = .err := by decide +kernel
example : parseTileGrid (.int 32) = .err := by decide +kernel
/-- `kSamplePartJSON` as a JSON value. -/
def samplePart : Json := .obj [([0x67, 0x6c, 0x6f, 0x62, 0x61, 0x6c, 0x5f, 0x63, 0x6c, 0x6f, 0x63, 0x6b, 0x5f, 0x72,
    0x65, 0x67, 0x69, 0x6f, 0x6e, 0x73], .obj [([0x62, 0x6f, 0x74, 0x74, 0x6f, 0x6d], .obj [([0x72, 0x6f, 0x77,
    0x73], .obj [([0x30], .obj [([0x63, 0x6f, 0x6e, 0x66, 0x69, 0x67, 0x75, 0x72, 0x61, 0x74, 0x69, 0x6f, 0x6e, 0x5f,
    0x62, 0x75, 0x73, 0x65, 0x73], .obj [([0x42, 0x4c, 0x4f, 0x43, 0x4b, 0x5f, 0x52, 0x41, 0x4d], .obj [([0x63, 0x6f,
    0x6e, 0x66, 0x69, 0x67, 0x75, 0x72, 0x61, 0x74, 0x69, 0x6f, 0x6e, 0x5f, 0x63, 0x6f, 0x6c, 0x75, 0x6d, 0x6e,
    0x73], .obj [([0x30], .obj [([0x66, 0x72, 0x61, 0x6d, 0x65, 0x5f, 0x63, 0x6f, 0x75, 0x6e, 0x74], .int 128)]),
    ([0x31], .obj [([0x66, 0x72, 0x61, 0x6d, 0x65, 0x5f, 0x63, 0x6f, 0x75, 0x6e, 0x74], .int 128)])])]), ([0x43,
    0x4c, 0x42, 0x5f, 0x49, 0x4f, 0x5f, 0x43, 0x4c, 0x4b], .obj [([0x63, 0x6f, 0x6e, 0x66, 0x69, 0x67, 0x75, 0x72,
    0x61, 0x74, 0x69, 0x6f, 0x6e, 0x5f, 0x63, 0x6f, 0x6c, 0x75, 0x6d, 0x6e, 0x73], .obj [([0x30], .obj [([0x66, 0x72,
    0x61, 0x6d, 0x65, 0x5f, 0x63, 0x6f, 0x75, 0x6e, 0x74], .int 42)]), ([0x31], .obj [([0x66, 0x72, 0x61, 0x6d, 0x65,
    0x5f, 0x63, 0x6f, 0x75, 0x6e, 0x74], .int 30)]), ([0x32], .obj [([0x66, 0x72, 0x61, 0x6d, 0x65, 0x5f, 0x63, 0x6f,
    0x75, 0x6e, 0x74], .int 36)]), ([0x33], .obj [([0x66, 0x72, 0x61, 0x6d, 0x65, 0x5f, 0x63, 0x6f, 0x75, 0x6e,
    0x74], .int 36)])])])])])])]), ([0x74, 0x6f, 0x70], .obj [([0x72, 0x6f, 0x77, 0x73], .obj [([0x30], .obj [([0x63,
    0x6f, 0x6e, 0x66, 0x69, 0x67, 0x75, 0x72, 0x61, 0x74, 0x69, 0x6f, 0x6e, 0x5f, 0x62, 0x75, 0x73, 0x65, 0x73],
    .obj [([0x42, 0x4c, 0x4f, 0x43, 0x4b, 0x5f, 0x52, 0x41, 0x4d], .obj [([0x63, 0x6f, 0x6e, 0x66, 0x69, 0x67, 0x75,
    0x72, 0x61, 0x74, 0x69, 0x6f, 0x6e, 0x5f, 0x63, 0x6f, 0x6c, 0x75, 0x6d, 0x6e, 0x73], .obj [([0x30], .obj [([0x66,
    0x72, 0x61, 0x6d, 0x65, 0x5f, 0x63, 0x6f, 0x75, 0x6e, 0x74], .int 128)]), ([0x31], .obj [([0x66, 0x72, 0x61,
    0x6d, 0x65, 0x5f, 0x63, 0x6f, 0x75, 0x6e, 0x74], .int 128)]), ([0x32], .obj [([0x66, 0x72, 0x61, 0x6d, 0x65,
    0x5f, 0x63, 0x6f, 0x75, 0x6e, 0x74], .int 128)])])]), ([0x43, 0x4c, 0x42, 0x5f, 0x49, 0x4f, 0x5f, 0x43, 0x4c,
    0x4b], .obj [([0x63, 0x6f, 0x6e, 0x66, 0x69, 0x67, 0x75, 0x72, 0x61, 0x74, 0x69, 0x6f, 0x6e, 0x5f, 0x63, 0x6f,
    0x6c, 0x75, 0x6d, 0x6e, 0x73], .obj [([0x30], .obj [([0x66, 0x72, 0x61, 0x6d, 0x65, 0x5f, 0x63, 0x6f, 0x75, 0x6e,
    0x74], .int 42)]), ([0x31], .obj [([0x66, 0x72, 0x61, 0x6d, 0x65, 0x5f, 0x63, 0x6f, 0x75, 0x6e, 0x74],
    .int 30)]), ([0x32], .obj [([0x66, 0x72, 0x61, 0x6d, 0x65, 0x5f, 0x63, 0x6f, 0x75, 0x6e, 0x74], .int 36)]),
    ([0x33], .obj [([0x66, 0x72, 0x61, 0x6d, 0x65, 0x5f, 0x63, 0x6f, 0x75, 0x6e, 0x74], .int 36)]), ([0x34],
    .obj [([0x66, 0x72, 0x61, 0x6d, 0x65, 0x5f, 0x63, 0x6f, 0x75, 0x6e, 0x74], .int 36)]), ([0x35], .obj [([0x66,
    0x72, 0x61, 0x6d, 0x65, 0x5f, 0x63, 0x6f, 0x75, 0x6e, 0x74], .int 36)]), ([0x36], .obj [([0x66, 0x72, 0x61, 0x6d,
    0x65, 0x5f, 0x63, 0x6f, 0x75, 0x6e, 0x74], .int 28)]), ([0x37], .obj [([0x66, 0x72, 0x61, 0x6d, 0x65, 0x5f, 0x63,
    0x6f, 0x75, 0x6e, 0x74], .int 36)])])])])]), ([0x31], .obj [([0x63, 0x6f, 0x6e, 0x66, 0x69, 0x67, 0x75, 0x72,
    0x61, 0x74, 0x69, 0x6f, 0x6e, 0x5f, 0x62, 0x75, 0x73, 0x65, 0x73], .obj [([0x42, 0x4c, 0x4f, 0x43, 0x4b, 0x5f,
    0x52, 0x41, 0x4d], .obj [([0x63, 0x6f, 0x6e, 0x66, 0x69, 0x67, 0x75, 0x72, 0x61, 0x74, 0x69, 0x6f, 0x6e, 0x5f,
    0x63, 0x6f, 0x6c, 0x75, 0x6d, 0x6e, 0x73], .obj [([0x30], .obj [([0x66, 0x72, 0x61, 0x6d, 0x65, 0x5f, 0x63, 0x6f,
    0x75, 0x6e, 0x74], .int 128)]), ([0x31], .obj [([0x66, 0x72, 0x61, 0x6d, 0x65, 0x5f, 0x63, 0x6f, 0x75, 0x6e,
    0x74], .int 128)])])]), ([0x43, 0x4c, 0x42, 0x5f, 0x49, 0x4f, 0x5f, 0x43, 0x4c, 0x4b], .obj [([0x63, 0x6f, 0x6e,
    0x66, 0x69, 0x67, 0x75, 0x72, 0x61, 0x74, 0x69, 0x6f, 0x6e, 0x5f, 0x63, 0x6f, 0x6c, 0x75, 0x6d, 0x6e, 0x73],
    .obj [([0x30], .obj [([0x66, 0x72, 0x61, 0x6d, 0x65, 0x5f, 0x63, 0x6f, 0x75, 0x6e, 0x74], .int 42)]), ([0x31],
    .obj [([0x66, 0x72, 0x61, 0x6d, 0x65, 0x5f, 0x63, 0x6f, 0x75, 0x6e, 0x74], .int 30)]), ([0x32], .obj [([0x66,
    0x72, 0x61, 0x6d, 0x65, 0x5f, 0x63, 0x6f, 0x75, 0x6e, 0x74], .int 36)])])])])])])])]), ([0x69, 0x64, 0x63, 0x6f,
    0x64, 0x65], .int 56807571), ([0x69, 0x6f, 0x62, 0x61, 0x6e, 0x6b, 0x73], .obj [([0x30], .str [0x58, 0x31, 0x59,
    0x37, 0x38]), ([0x31, 0x34], .str [0x58, 0x31, 0x59, 0x32, 0x36]), ([0x31, 0x35], .str [0x58, 0x31, 0x59, 0x37,
    0x38]), ([0x31, 0x36], .str [0x58, 0x31, 0x59, 0x31, 0x33, 0x30]), ([0x33, 0x34], .str [0x58, 0x31, 0x31, 0x33,
    0x59, 0x32, 0x36]), ([0x33, 0x35], .str [0x58, 0x31, 0x31, 0x33, 0x59, 0x37, 0x38])])]
example : parsePart samplePart = .ok ⟨[[(.blockRam, [128, 128]), (.clbIoClk, [42, 30, 36, 36])]], [[(.blockRam, [128,
    128, 128]), (.clbIoClk, [42, 30, 36, 36, 36, 36, 28, 36])], [(.blockRam, [128, 128]), (.clbIoClk, [42, 30,
    36])]], 56807571#32, [(0, [0x58, 0x31, 0x59, 0x37, 0x38]), (14, [0x58, 0x31, 0x59, 0x32, 0x36]), (15, [0x58,
    0x31, 0x59, 0x37, 0x38]), (16, [0x58, 0x31, 0x59, 0x31, 0x33, 0x30]), (34, [0x58, 0x31, 0x31, 0x33, 0x59, 0x32,
    0x36]), (35, [0x58, 0x31, 0x31, 0x33, 0x59, 0x37, 0x38])]⟩ := by decide +kernel
/-- `kSampleTileGridJSON`, the text. -/
def sampleGridText : Bytes := [0x7b, 0x0a, 0x20, 0x20, 0x22, 0x54, 0x49, 0x4c, 0x45, 0x5f, 0x41, 0x22, 0x3a, 0x20,
    0x7b, 0x0a, 0x20, 0x20, 0x20, 0x20, 0x22, 0x62, 0x69, 0x74, 0x73, 0x22, 0x3a, 0x20, 0x7b, 0x0a, 0x20, 0x20, 0x20,
    0x20, 0x20, 0x20, 0x22, 0x43, 0x4c, 0x42, 0x5f, 0x49, 0x4f, 0x5f, 0x43, 0x4c, 0x4b, 0x22, 0x3a, 0x20, 0x7b, 0x0a,
    0x20, 0x20, 0x20, 0x20, 0x20, 0x20, 0x20, 0x20, 0x22, 0x61, 0x6c, 0x69, 0x61, 0x73, 0x22, 0x3a, 0x20, 0x7b, 0x0a,
    0x20, 0x20, 0x20, 0x20, 0x20, 0x20, 0x20, 0x20, 0x20, 0x20, 0x22, 0x73, 0x69, 0x74, 0x65, 0x73, 0x22, 0x3a, 0x20,
    0x7b, 0x7d, 0x2c, 0x0a, 0x20, 0x20, 0x20, 0x20, 0x20, 0x20, 0x20, 0x20, 0x20, 0x20, 0x22, 0x73, 0x74, 0x61, 0x72,
    0x74, 0x5f, 0x6f, 0x66, 0x66, 0x73, 0x65, 0x74, 0x22, 0x3a, 0x20, 0x30, 0x2c, 0x0a, 0x20, 0x20, 0x20, 0x20, 0x20,
    0x20, 0x20, 0x20, 0x20, 0x20, 0x22, 0x74, 0x79, 0x70, 0x65, 0x22, 0x3a, 0x20, 0x22, 0x48, 0x43, 0x4c, 0x4b, 0x5f,
    0x4c, 0x22, 0x0a, 0x20, 0x20, 0x20, 0x20, 0x20, 0x20, 0x20, 0x20, 0x7d, 0x2c, 0x0a, 0x20, 0x20, 0x20, 0x20, 0x20,
    0x20, 0x20, 0x20, 0x22, 0x62, 0x61, 0x73, 0x65, 0x61, 0x64, 0x64, 0x72, 0x22, 0x3a, 0x20, 0x22, 0x30, 0x78, 0x30,
    0x30, 0x30, 0x32, 0x30, 0x45, 0x30, 0x30, 0x22, 0x2c, 0x0a, 0x20, 0x20, 0x20, 0x20, 0x20, 0x20, 0x20, 0x20, 0x22,
    0x66, 0x72, 0x61, 0x6d, 0x65, 0x73, 0x22, 0x3a, 0x20, 0x32, 0x36, 0x2c, 0x0a, 0x20, 0x20, 0x20, 0x20, 0x20, 0x20,
    0x20, 0x20, 0x22, 0x6f, 0x66, 0x66, 0x73, 0x65, 0x74, 0x22, 0x3a, 0x20, 0x35, 0x30, 0x2c, 0x0a, 0x20, 0x20, 0x20,
    0x20, 0x20, 0x20, 0x20, 0x20, 0x22, 0x77, 0x6f, 0x72, 0x64, 0x73, 0x22, 0x3a, 0x20, 0x31, 0x0a, 0x20, 0x20, 0x20,
    0x20, 0x20, 0x20, 0x7d, 0x0a, 0x20, 0x20, 0x20, 0x20, 0x7d, 0x2c, 0x0a, 0x20, 0x20, 0x20, 0x20, 0x22, 0x67, 0x72,
    0x69, 0x64, 0x5f, 0x78, 0x22, 0x3a, 0x20, 0x37, 0x32, 0x2c, 0x0a, 0x20, 0x20, 0x20, 0x20, 0x22, 0x67, 0x72, 0x69,
    0x64, 0x5f, 0x79, 0x22, 0x3a, 0x20, 0x32, 0x36, 0x2c, 0x0a, 0x20, 0x20, 0x20, 0x20, 0x22, 0x70, 0x69, 0x6e, 0x5f,
    0x66, 0x75, 0x6e, 0x63, 0x74, 0x69, 0x6f, 0x6e, 0x73, 0x22, 0x3a, 0x20, 0x7b, 0x7d, 0x2c, 0x0a, 0x20, 0x20, 0x20,
    0x20, 0x22, 0x70, 0x72, 0x6f, 0x68, 0x69, 0x62, 0x69, 0x74, 0x65, 0x64, 0x5f, 0x73, 0x69, 0x74, 0x65, 0x73, 0x22,
    0x3a, 0x20, 0x5b, 0x5d, 0x2c, 0x0a, 0x20, 0x20, 0x20, 0x20, 0x22, 0x73, 0x69, 0x74, 0x65, 0x73, 0x22, 0x3a, 0x20,
    0x7b, 0x7d, 0x2c, 0x0a, 0x20, 0x20, 0x20, 0x20, 0x22, 0x74, 0x79, 0x70, 0x65, 0x22, 0x3a, 0x20, 0x22, 0x48, 0x43,
    0x4c, 0x4b, 0x5f, 0x4c, 0x5f, 0x42, 0x4f, 0x54, 0x5f, 0x55, 0x54, 0x55, 0x52, 0x4e, 0x22, 0x0a, 0x20, 0x20, 0x7d,
    0x2c, 0x0a, 0x20, 0x20, 0x22, 0x54, 0x49, 0x4c, 0x45, 0x5f, 0x42, 0x22, 0x3a, 0x20, 0x7b, 0x0a, 0x20, 0x20, 0x20,
    0x20, 0x22, 0x62, 0x69, 0x74, 0x73, 0x22, 0x3a, 0x20, 0x7b, 0x0a, 0x20, 0x20, 0x20, 0x20, 0x20, 0x20, 0x22, 0x43,
    0x4c, 0x42, 0x5f, 0x49, 0x4f, 0x5f, 0x43, 0x4c, 0x4b, 0x22, 0x3a, 0x20, 0x7b, 0x0a, 0x20, 0x20, 0x20, 0x20, 0x20,
    0x20, 0x20, 0x20, 0x22, 0x61, 0x6c, 0x69, 0x61, 0x73, 0x22, 0x3a, 0x20, 0x7b, 0x0a, 0x20, 0x20, 0x20, 0x20, 0x20,
    0x20, 0x20, 0x20, 0x20, 0x20, 0x22, 0x73, 0x69, 0x74, 0x65, 0x73, 0x22, 0x3a, 0x20, 0x7b, 0x0a, 0x20, 0x20, 0x20,
    0x20, 0x20, 0x20, 0x20, 0x20, 0x20, 0x20, 0x20, 0x20, 0x22, 0x49, 0x4f, 0x42, 0x33, 0x33, 0x5f, 0x59, 0x30, 0x22,
    0x3a, 0x20, 0x22, 0x49, 0x4f, 0x42, 0x33, 0x33, 0x5f, 0x59, 0x30, 0x22, 0x0a, 0x20, 0x20, 0x20, 0x20, 0x20, 0x20,
    0x20, 0x20, 0x20, 0x20, 0x7d, 0x2c, 0x0a, 0x20, 0x20, 0x20, 0x20, 0x20, 0x20, 0x20, 0x20, 0x20, 0x20, 0x22, 0x73,
    0x74, 0x61, 0x72, 0x74, 0x5f, 0x6f, 0x66, 0x66, 0x73, 0x65, 0x74, 0x22, 0x3a, 0x20, 0x32, 0x2c, 0x0a, 0x20, 0x20,
    0x20, 0x20, 0x20, 0x20, 0x20, 0x20, 0x20, 0x20, 0x22, 0x74, 0x79, 0x70, 0x65, 0x22, 0x3a, 0x20, 0x22, 0x4c, 0x49,
    0x4f, 0x42, 0x33, 0x33, 0x22, 0x0a, 0x20, 0x20, 0x20, 0x20, 0x20, 0x20, 0x20, 0x20, 0x7d, 0x2c, 0x0a, 0x20, 0x20,
    0x20, 0x20, 0x20, 0x20, 0x20, 0x20, 0x22, 0x62, 0x61, 0x73, 0x65, 0x61, 0x64, 0x64, 0x72, 0x22, 0x3a, 0x20, 0x22,
    0x30, 0x78, 0x30, 0x30, 0x34, 0x30, 0x30, 0x30, 0x30, 0x30, 0x22, 0x2c, 0x0a, 0x20, 0x20, 0x20, 0x20, 0x20, 0x20,
    0x20, 0x20, 0x22, 0x66, 0x72, 0x61, 0x6d, 0x65, 0x73, 0x22, 0x3a, 0x20, 0x34, 0x32, 0x2c, 0x0a, 0x20, 0x20, 0x20,
    0x20, 0x20, 0x20, 0x20, 0x20, 0x22, 0x6f, 0x66, 0x66, 0x73, 0x65, 0x74, 0x22, 0x3a, 0x20, 0x30, 0x2c, 0x0a, 0x20,
    0x20, 0x20, 0x20, 0x20, 0x20, 0x20, 0x20, 0x22, 0x77, 0x6f, 0x72, 0x64, 0x73, 0x22, 0x3a, 0x20, 0x32, 0x0a, 0x20,
    0x20, 0x20, 0x20, 0x20, 0x20, 0x7d, 0x0a, 0x20, 0x20, 0x20, 0x20, 0x7d, 0x2c, 0x0a, 0x20, 0x20, 0x20, 0x20, 0x22,
    0x63, 0x6c, 0x6f, 0x63, 0x6b, 0x5f, 0x72, 0x65, 0x67, 0x69, 0x6f, 0x6e, 0x22, 0x3a, 0x20, 0x22, 0x58, 0x30, 0x59,
    0x30, 0x22, 0x2c, 0x0a, 0x20, 0x20, 0x20, 0x20, 0x22, 0x67, 0x72, 0x69, 0x64, 0x5f, 0x78, 0x22, 0x3a, 0x20, 0x30,
    0x2c, 0x0a, 0x20, 0x20, 0x20, 0x20, 0x22, 0x67, 0x72, 0x69, 0x64, 0x5f, 0x79, 0x22, 0x3a, 0x20, 0x31, 0x35, 0x35,
    0x2c, 0x0a, 0x20, 0x20, 0x20, 0x20, 0x22, 0x70, 0x69, 0x6e, 0x5f, 0x66, 0x75, 0x6e, 0x63, 0x74, 0x69, 0x6f, 0x6e,
    0x73, 0x22, 0x3a, 0x20, 0x7b, 0x0a, 0x20, 0x20, 0x20, 0x20, 0x20, 0x20, 0x22, 0x49, 0x4f, 0x42, 0x5f, 0x58, 0x30,
    0x59, 0x30, 0x22, 0x3a, 0x20, 0x22, 0x49, 0x4f, 0x5f, 0x32, 0x35, 0x5f, 0x31, 0x34, 0x22, 0x0a, 0x20, 0x20, 0x20,
    0x20, 0x7d, 0x2c, 0x0a, 0x20, 0x20, 0x20, 0x20, 0x22, 0x70, 0x72, 0x6f, 0x68, 0x69, 0x62, 0x69, 0x74, 0x65, 0x64,
    0x5f, 0x73, 0x69, 0x74, 0x65, 0x73, 0x22, 0x3a, 0x20, 0x5b, 0x5d, 0x2c, 0x0a, 0x20, 0x20, 0x20, 0x20, 0x22, 0x73,
    0x69, 0x74, 0x65, 0x73, 0x22, 0x3a, 0x20, 0x7b, 0x0a, 0x20, 0x20, 0x20, 0x20, 0x20, 0x20, 0x22, 0x49, 0x4f, 0x42,
    0x5f, 0x58, 0x30, 0x59, 0x30, 0x22, 0x3a, 0x20, 0x22, 0x49, 0x4f, 0x42, 0x33, 0x33, 0x22, 0x0a, 0x20, 0x20, 0x20,
    0x20, 0x7d, 0x2c, 0x0a, 0x20, 0x20, 0x20, 0x20, 0x22, 0x74, 0x79, 0x70, 0x65, 0x22, 0x3a, 0x20, 0x22, 0x4c, 0x49,
    0x4f, 0x42, 0x33, 0x33, 0x5f, 0x53, 0x49, 0x4e, 0x47, 0x22, 0x0a, 0x20, 0x20, 0x7d, 0x0a, 0x7d]
/-- `kSamplePartJSON`, the text. -/
def samplePartText : Bytes := [0x7b, 0x0a, 0x20, 0x20, 0x22, 0x67, 0x6c, 0x6f, 0x62, 0x61, 0x6c, 0x5f, 0x63, 0x6c,
    0x6f, 0x63, 0x6b, 0x5f, 0x72, 0x65, 0x67, 0x69, 0x6f, 0x6e, 0x73, 0x22, 0x3a, 0x20, 0x7b, 0x0a, 0x20, 0x20, 0x20,
    0x20, 0x22, 0x62, 0x6f, 0x74, 0x74, 0x6f, 0x6d, 0x22, 0x3a, 0x20, 0x7b, 0x0a, 0x20, 0x20, 0x20, 0x20, 0x20, 0x20,
    0x22, 0x72, 0x6f, 0x77, 0x73, 0x22, 0x3a, 0x20, 0x7b, 0x0a, 0x20, 0x20, 0x20, 0x20, 0x20, 0x20, 0x20, 0x20, 0x22,
    0x30, 0x22, 0x3a, 0x20, 0x7b, 0x0a, 0x20, 0x20, 0x20, 0x20, 0x20, 0x20, 0x20, 0x20, 0x20, 0x20, 0x22, 0x63, 0x6f,
    0x6e, 0x66, 0x69, 0x67, 0x75, 0x72, 0x61, 0x74, 0x69, 0x6f, 0x6e, 0x5f, 0x62, 0x75, 0x73, 0x65, 0x73, 0x22, 0x3a,
    0x20, 0x7b, 0x0a, 0x20, 0x20, 0x20, 0x20, 0x20, 0x20, 0x20, 0x20, 0x20, 0x20, 0x20, 0x20, 0x22, 0x42, 0x4c, 0x4f,
    0x43, 0x4b, 0x5f, 0x52, 0x41, 0x4d, 0x22, 0x3a, 0x20, 0x7b, 0x0a, 0x20, 0x20, 0x20, 0x20, 0x20, 0x20, 0x20, 0x20,
    0x20, 0x20, 0x20, 0x20, 0x20, 0x20, 0x22, 0x63, 0x6f, 0x6e, 0x66, 0x69, 0x67, 0x75, 0x72, 0x61, 0x74, 0x69, 0x6f,
    0x6e, 0x5f, 0x63, 0x6f, 0x6c, 0x75, 0x6d, 0x6e, 0x73, 0x22, 0x3a, 0x20, 0x7b, 0x0a, 0x20, 0x20, 0x20, 0x20, 0x20,
    0x20, 0x20, 0x20, 0x20, 0x20, 0x20, 0x20, 0x20, 0x20, 0x20, 0x20, 0x22, 0x30, 0x22, 0x3a, 0x20, 0x7b, 0x0a, 0x20,
    0x20, 0x20, 0x20, 0x20, 0x20, 0x20, 0x20, 0x20, 0x20, 0x20, 0x20, 0x20, 0x20, 0x20, 0x20, 0x20, 0x20, 0x22, 0x66,
    0x72, 0x61, 0x6d, 0x65, 0x5f, 0x63, 0x6f, 0x75, 0x6e, 0x74, 0x22, 0x3a, 0x20, 0x31, 0x32, 0x38, 0x0a, 0x20, 0x20,
    0x20, 0x20, 0x20, 0x20, 0x20, 0x20, 0x20, 0x20, 0x20, 0x20, 0x20, 0x20, 0x20, 0x20, 0x7d, 0x2c, 0x0a, 0x20, 0x20,
    0x20, 0x20, 0x20, 0x20, 0x20, 0x20, 0x20, 0x20, 0x20, 0x20, 0x20, 0x20, 0x20, 0x20, 0x22, 0x31, 0x22, 0x3a, 0x20,
    0x7b, 0x0a, 0x20, 0x20, 0x20, 0x20, 0x20, 0x20, 0x20, 0x20, 0x20, 0x20, 0x20, 0x20, 0x20, 0x20, 0x20, 0x20, 0x20,
    0x20, 0x22, 0x66, 0x72, 0x61, 0x6d, 0x65, 0x5f, 0x63, 0x6f, 0x75, 0x6e, 0x74, 0x22, 0x3a, 0x20, 0x31, 0x32, 0x38,
    0x0a, 0x20, 0x20, 0x20, 0x20, 0x20, 0x20, 0x20, 0x20, 0x20, 0x20, 0x20, 0x20, 0x20, 0x20, 0x20, 0x20, 0x7d, 0x0a,
    0x20, 0x20, 0x20, 0x20, 0x20, 0x20, 0x20, 0x20, 0x20, 0x20, 0x20, 0x20, 0x20, 0x20, 0x7d, 0x0a, 0x20, 0x20, 0x20,
    0x20, 0x20, 0x20, 0x20, 0x20, 0x20, 0x20, 0x20, 0x20, 0x7d, 0x2c, 0x0a, 0x20, 0x20, 0x20, 0x20, 0x20, 0x20, 0x20,
    0x20, 0x20, 0x20, 0x20, 0x20, 0x22, 0x43, 0x4c, 0x42, 0x5f, 0x49, 0x4f, 0x5f, 0x43, 0x4c, 0x4b, 0x22, 0x3a, 0x20,
    0x7b, 0x0a, 0x20, 0x20, 0x20, 0x20, 0x20, 0x20, 0x20, 0x20, 0x20, 0x20, 0x20, 0x20, 0x20, 0x20, 0x22, 0x63, 0x6f,
    0x6e, 0x66, 0x69, 0x67, 0x75, 0x72, 0x61, 0x74, 0x69, 0x6f, 0x6e, 0x5f, 0x63, 0x6f, 0x6c, 0x75, 0x6d, 0x6e, 0x73,
    0x22, 0x3a, 0x20, 0x7b, 0x0a, 0x20, 0x20, 0x20, 0x20, 0x20, 0x20, 0x20, 0x20, 0x20, 0x20, 0x20, 0x20, 0x20, 0x20,
    0x20, 0x20, 0x22, 0x30, 0x22, 0x3a, 0x20, 0x7b, 0x0a, 0x20, 0x20, 0x20, 0x20, 0x20, 0x20, 0x20, 0x20, 0x20, 0x20,
    0x20, 0x20, 0x20, 0x20, 0x20, 0x20, 0x20, 0x20, 0x22, 0x66, 0x72, 0x61, 0x6d, 0x65, 0x5f, 0x63, 0x6f, 0x75, 0x6e,
    0x74, 0x22, 0x3a, 0x20, 0x34, 0x32, 0x0a, 0x20, 0x20, 0x20, 0x20, 0x20, 0x20, 0x20, 0x20, 0x20, 0x20, 0x20, 0x20,
    0x20, 0x20, 0x20, 0x20, 0x7d, 0x2c, 0x0a, 0x20, 0x20, 0x20, 0x20, 0x20, 0x20, 0x20, 0x20, 0x20, 0x20, 0x20, 0x20,
    0x20, 0x20, 0x20, 0x20, 0x22, 0x31, 0x22, 0x3a, 0x20, 0x7b, 0x0a, 0x20, 0x20, 0x20, 0x20, 0x20, 0x20, 0x20, 0x20,
    0x20, 0x20, 0x20, 0x20, 0x20, 0x20, 0x20, 0x20, 0x20, 0x20, 0x22, 0x66, 0x72, 0x61, 0x6d, 0x65, 0x5f, 0x63, 0x6f,
    0x75, 0x6e, 0x74, 0x22, 0x3a, 0x20, 0x33, 0x30, 0x0a, 0x20, 0x20, 0x20, 0x20, 0x20, 0x20, 0x20, 0x20, 0x20, 0x20,
    0x20, 0x20, 0x20, 0x20, 0x20, 0x20, 0x7d, 0x2c, 0x0a, 0x20, 0x20, 0x20, 0x20, 0x20, 0x20, 0x20, 0x20, 0x20, 0x20,
    0x20, 0x20, 0x20, 0x20, 0x20, 0x20, 0x22, 0x32, 0x22, 0x3a, 0x20, 0x7b, 0x0a, 0x20, 0x20, 0x20, 0x20, 0x20, 0x20,
    0x20, 0x20, 0x20, 0x20, 0x20, 0x20, 0x20, 0x20, 0x20, 0x20, 0x20, 0x20, 0x22, 0x66, 0x72, 0x61, 0x6d, 0x65, 0x5f,
    0x63, 0x6f, 0x75, 0x6e, 0x74, 0x22, 0x3a, 0x20, 0x33, 0x36, 0x0a, 0x20, 0x20, 0x20, 0x20, 0x20, 0x20, 0x20, 0x20,
    0x20, 0x20, 0x20, 0x20, 0x20, 0x20, 0x20, 0x20, 0x7d, 0x2c, 0x0a, 0x20, 0x20, 0x20, 0x20, 0x20, 0x20, 0x20, 0x20,
    0x20, 0x20, 0x20, 0x20, 0x20, 0x20, 0x20, 0x20, 0x22, 0x33, 0x22, 0x3a, 0x20, 0x7b, 0x0a, 0x20, 0x20, 0x20, 0x20,
    0x20, 0x20, 0x20, 0x20, 0x20, 0x20, 0x20, 0x20, 0x20, 0x20, 0x20, 0x20, 0x20, 0x20, 0x22, 0x66, 0x72, 0x61, 0x6d,
    0x65, 0x5f, 0x63, 0x6f, 0x75, 0x6e, 0x74, 0x22, 0x3a, 0x20, 0x33, 0x36, 0x0a, 0x20, 0x20, 0x20, 0x20, 0x20, 0x20,
    0x20, 0x20, 0x20, 0x20, 0x20, 0x20, 0x20, 0x20, 0x20, 0x20, 0x7d, 0x0a, 0x20, 0x20, 0x20, 0x20, 0x20, 0x20, 0x20,
    0x20, 0x20, 0x20, 0x20, 0x20, 0x20, 0x20, 0x7d, 0x0a, 0x20, 0x20, 0x20, 0x20, 0x20, 0x20, 0x20, 0x20, 0x20, 0x20,
    0x20, 0x20, 0x7d, 0x0a, 0x20, 0x20, 0x20, 0x20, 0x20, 0x20, 0x20, 0x20, 0x20, 0x20, 0x7d, 0x0a, 0x20, 0x20, 0x20,
    0x20, 0x20, 0x20, 0x20, 0x20, 0x7d, 0x0a, 0x20, 0x20, 0x20, 0x20, 0x20, 0x20, 0x7d, 0x0a, 0x20, 0x20, 0x20, 0x20,
    0x7d, 0x2c, 0x0a, 0x20, 0x20, 0x20, 0x20, 0x22, 0x74, 0x6f, 0x70, 0x22, 0x3a, 0x20, 0x7b, 0x0a, 0x20, 0x20, 0x20,
    0x20, 0x20, 0x20, 0x22, 0x72, 0x6f, 0x77, 0x73, 0x22, 0x3a, 0x20, 0x7b, 0x0a, 0x20, 0x20, 0x20, 0x20, 0x20, 0x20,
    0x20, 0x20, 0x22, 0x30, 0x22, 0x3a, 0x20, 0x7b, 0x0a, 0x20, 0x20, 0x20, 0x20, 0x20, 0x20, 0x20, 0x20, 0x20, 0x20,
    0x22, 0x63, 0x6f, 0x6e, 0x66, 0x69, 0x67, 0x75, 0x72, 0x61, 0x74, 0x69, 0x6f, 0x6e, 0x5f, 0x62, 0x75, 0x73, 0x65,
    0x73, 0x22, 0x3a, 0x20, 0x7b, 0x0a, 0x20, 0x20, 0x20, 0x20, 0x20, 0x20, 0x20, 0x20, 0x20, 0x20, 0x20, 0x20, 0x22,
    0x42, 0x4c, 0x4f, 0x43, 0x4b, 0x5f, 0x52, 0x41, 0x4d, 0x22, 0x3a, 0x20, 0x7b, 0x0a, 0x20, 0x20, 0x20, 0x20, 0x20,
    0x20, 0x20, 0x20, 0x20, 0x20, 0x20, 0x20, 0x20, 0x20, 0x22, 0x63, 0x6f, 0x6e, 0x66, 0x69, 0x67, 0x75, 0x72, 0x61,
    0x74, 0x69, 0x6f, 0x6e, 0x5f, 0x63, 0x6f, 0x6c, 0x75, 0x6d, 0x6e, 0x73, 0x22, 0x3a, 0x20, 0x7b, 0x0a, 0x20, 0x20,
    0x20, 0x20, 0x20, 0x20, 0x20, 0x20, 0x20, 0x20, 0x20, 0x20, 0x20, 0x20, 0x20, 0x20, 0x22, 0x30, 0x22, 0x3a, 0x20,
    0x7b, 0x0a, 0x20, 0x20, 0x20, 0x20, 0x20, 0x20, 0x20, 0x20, 0x20, 0x20, 0x20, 0x20, 0x20, 0x20, 0x20, 0x20, 0x20,
    0x20, 0x22, 0x66, 0x72, 0x61, 0x6d, 0x65, 0x5f, 0x63, 0x6f, 0x75, 0x6e, 0x74, 0x22, 0x3a, 0x20, 0x31, 0x32, 0x38,
    0x0a, 0x20, 0x20, 0x20, 0x20, 0x20, 0x20, 0x20, 0x20, 0x20, 0x20, 0x20, 0x20, 0x20, 0x20, 0x20, 0x20, 0x7d, 0x2c,
    0x0a, 0x20, 0x20, 0x20, 0x20, 0x20, 0x20, 0x20, 0x20, 0x20, 0x20, 0x20, 0x20, 0x20, 0x20, 0x20, 0x20, 0x22, 0x31,
    0x22, 0x3a, 0x20, 0x7b, 0x0a, 0x20, 0x20, 0x20, 0x20, 0x20, 0x20, 0x20, 0x20, 0x20, 0x20, 0x20, 0x20, 0x20, 0x20,
    0x20, 0x20, 0x20, 0x20, 0x22, 0x66, 0x72, 0x61, 0x6d, 0x65, 0x5f, 0x63, 0x6f, 0x75, 0x6e, 0x74, 0x22, 0x3a, 0x20,
    0x31, 0x32, 0x38, 0x0a, 0x20, 0x20, 0x20, 0x20, 0x20, 0x20, 0x20, 0x20, 0x20, 0x20, 0x20, 0x20, 0x20, 0x20, 0x20,
    0x20, 0x7d, 0x2c, 0x0a, 0x20, 0x20, 0x20, 0x20, 0x20, 0x20, 0x20, 0x20, 0x20, 0x20, 0x20, 0x20, 0x20, 0x20, 0x20,
    0x20, 0x22, 0x32, 0x22, 0x3a, 0x20, 0x7b, 0x0a, 0x20, 0x20, 0x20, 0x20, 0x20, 0x20, 0x20, 0x20, 0x20, 0x20, 0x20,
    0x20, 0x20, 0x20, 0x20, 0x20, 0x20, 0x20, 0x22, 0x66, 0x72, 0x61, 0x6d, 0x65, 0x5f, 0x63, 0x6f, 0x75, 0x6e, 0x74,
    0x22, 0x3a, 0x20, 0x31, 0x32, 0x38, 0x0a, 0x20, 0x20, 0x20, 0x20, 0x20, 0x20, 0x20, 0x20, 0x20, 0x20, 0x20, 0x20,
    0x20, 0x20, 0x20, 0x20, 0x7d, 0x0a, 0x20, 0x20, 0x20, 0x20, 0x20, 0x20, 0x20, 0x20, 0x20, 0x20, 0x20, 0x20, 0x20,
    0x20, 0x7d, 0x0a, 0x20, 0x20, 0x20, 0x20, 0x20, 0x20, 0x20, 0x20, 0x20, 0x20, 0x20, 0x20, 0x7d, 0x2c, 0x0a, 0x20,
    0x20, 0x20, 0x20, 0x20, 0x20, 0x20, 0x20, 0x20, 0x20, 0x20, 0x20, 0x22, 0x43, 0x4c, 0x42, 0x5f, 0x49, 0x4f, 0x5f,
    0x43, 0x4c, 0x4b, 0x22, 0x3a, 0x20, 0x7b, 0x0a, 0x20, 0x20, 0x20, 0x20, 0x20, 0x20, 0x20, 0x20, 0x20, 0x20, 0x20,
    0x20, 0x20, 0x20, 0x22, 0x63, 0x6f, 0x6e, 0x66, 0x69, 0x67, 0x75, 0x72, 0x61, 0x74, 0x69, 0x6f, 0x6e, 0x5f, 0x63,
    0x6f, 0x6c, 0x75, 0x6d, 0x6e, 0x73, 0x22, 0x3a, 0x20, 0x7b, 0x0a, 0x20, 0x20, 0x20, 0x20, 0x20, 0x20, 0x20, 0x20,
    0x20, 0x20, 0x20, 0x20, 0x20, 0x20, 0x20, 0x20, 0x22, 0x30, 0x22, 0x3a, 0x20, 0x7b, 0x0a, 0x20, 0x20, 0x20, 0x20,
    0x20, 0x20, 0x20, 0x20, 0x20, 0x20, 0x20, 0x20, 0x20, 0x20, 0x20, 0x20, 0x20, 0x20, 0x22, 0x66, 0x72, 0x61, 0x6d,
    0x65, 0x5f, 0x63, 0x6f, 0x75, 0x6e, 0x74, 0x22, 0x3a, 0x20, 0x34, 0x32, 0x0a, 0x20, 0x20, 0x20, 0x20, 0x20, 0x20,
    0x20, 0x20, 0x20, 0x20, 0x20, 0x20, 0x20, 0x20, 0x20, 0x20, 0x7d, 0x2c, 0x0a, 0x20, 0x20, 0x20, 0x20, 0x20, 0x20,
    0x20, 0x20, 0x20, 0x20, 0x20, 0x20, 0x20, 0x20, 0x20, 0x20, 0x22, 0x31, 0x22, 0x3a, 0x20, 0x7b, 0x0a, 0x20, 0x20,
    0x20, 0x20, 0x20, 0x20, 0x20, 0x20, 0x20, 0x20, 0x20, 0x20, 0x20, 0x20, 0x20, 0x20, 0x20, 0x20, 0x22, 0x66, 0x72,
    0x61, 0x6d, 0x65, 0x5f, 0x63, 0x6f, 0x75, 0x6e, 0x74, 0x22, 0x3a, 0x20, 0x33, 0x30, 0x0a, 0x20, 0x20, 0x20, 0x20,
    0x20, 0x20, 0x20, 0x20, 0x20, 0x20, 0x20, 0x20, 0x20, 0x20, 0x20, 0x20, 0x7d, 0x2c, 0x0a, 0x20, 0x20, 0x20, 0x20,
    0x20, 0x20, 0x20, 0x20, 0x20, 0x20, 0x20, 0x20, 0x20, 0x20, 0x20, 0x20, 0x22, 0x32, 0x22, 0x3a, 0x20, 0x7b, 0x0a,
    0x20, 0x20, 0x20, 0x20, 0x20, 0x20, 0x20, 0x20, 0x20, 0x20, 0x20, 0x20, 0x20, 0x20, 0x20, 0x20, 0x20, 0x20, 0x22,
    0x66, 0x72, 0x61, 0x6d, 0x65, 0x5f, 0x63, 0x6f, 0x75, 0x6e, 0x74, 0x22, 0x3a, 0x20, 0x33, 0x36, 0x0a, 0x20, 0x20,
    0x20, 0x20, 0x20, 0x20, 0x20, 0x20, 0x20, 0x20, 0x20, 0x20, 0x20, 0x20, 0x20, 0x20, 0x7d, 0x2c, 0x0a, 0x20, 0x20,
    0x20, 0x20, 0x20, 0x20, 0x20, 0x20, 0x20, 0x20, 0x20, 0x20, 0x20, 0x20, 0x20, 0x20, 0x22, 0x33, 0x22, 0x3a, 0x20,
    0x7b, 0x0a, 0x20, 0x20, 0x20, 0x20, 0x20, 0x20, 0x20, 0x20, 0x20, 0x20, 0x20, 0x20, 0x20, 0x20, 0x20, 0x20, 0x20,
    0x20, 0x22, 0x66, 0x72, 0x61, 0x6d, 0x65, 0x5f, 0x63, 0x6f, 0x75, 0x6e, 0x74, 0x22, 0x3a, 0x20, 0x33, 0x36, 0x0a,
    0x20, 0x20, 0x20, 0x20, 0x20, 0x20, 0x20, 0x20, 0x20, 0x20, 0x20, 0x20, 0x20, 0x20, 0x20, 0x20, 0x7d, 0x2c, 0x0a,
    0x20, 0x20, 0x20, 0x20, 0x20, 0x20, 0x20, 0x20, 0x20, 0x20, 0x20, 0x20, 0x20, 0x20, 0x20, 0x20, 0x22, 0x34, 0x22,
    0x3a, 0x20, 0x7b, 0x0a, 0x20, 0x20, 0x20, 0x20, 0x20, 0x20, 0x20, 0x20, 0x20, 0x20, 0x20, 0x20, 0x20, 0x20, 0x20,
    0x20, 0x20, 0x20, 0x22, 0x66, 0x72, 0x61, 0x6d, 0x65, 0x5f, 0x63, 0x6f, 0x75, 0x6e, 0x74, 0x22, 0x3a, 0x20, 0x33,
    0x36, 0x0a, 0x20, 0x20, 0x20, 0x20, 0x20, 0x20, 0x20, 0x20, 0x20, 0x20, 0x20, 0x20, 0x20, 0x20, 0x20, 0x20, 0x7d,
    0x2c, 0x0a, 0x20, 0x20, 0x20, 0x20, 0x20, 0x20, 0x20, 0x20, 0x20, 0x20, 0x20, 0x20, 0x20, 0x20, 0x20, 0x20, 0x22,
    0x35, 0x22, 0x3a, 0x20, 0x7b, 0x0a, 0x20, 0x20, 0x20, 0x20, 0x20, 0x20, 0x20, 0x20, 0x20, 0x20, 0x20, 0x20, 0x20,
    0x20, 0x20, 0x20, 0x20, 0x20, 0x22, 0x66, 0x72, 0x61, 0x6d, 0x65, 0x5f, 0x63, 0x6f, 0x75, 0x6e, 0x74, 0x22, 0x3a,
    0x20, 0x33, 0x36, 0x0a, 0x20, 0x20, 0x20, 0x20, 0x20, 0x20, 0x20, 0x20, 0x20, 0x20, 0x20, 0x20, 0x20, 0x20, 0x20,
    0x20, 0x7d, 0x2c, 0x0a, 0x20, 0x20, 0x20, 0x20, 0x20, 0x20, 0x20, 0x20, 0x20, 0x20, 0x20, 0x20, 0x20, 0x20, 0x20,
    0x20, 0x22, 0x36, 0x22, 0x3a, 0x20, 0x7b, 0x0a, 0x20, 0x20, 0x20, 0x20, 0x20, 0x20, 0x20, 0x20, 0x20, 0x20, 0x20,
    0x20, 0x20, 0x20, 0x20, 0x20, 0x20, 0x20, 0x22, 0x66, 0x72, 0x61, 0x6d, 0x65, 0x5f, 0x63, 0x6f, 0x75, 0x6e, 0x74,
    0x22, 0x3a, 0x20, 0x32, 0x38, 0x0a, 0x20, 0x20, 0x20, 0x20, 0x20, 0x20, 0x20, 0x20, 0x20, 0x20, 0x20, 0x20, 0x20,
    0x20, 0x20, 0x20, 0x7d, 0x2c, 0x0a, 0x20, 0x20, 0x20, 0x20, 0x20, 0x20, 0x20, 0x20, 0x20, 0x20, 0x20, 0x20, 0x20,
    0x20, 0x20, 0x20, 0x22, 0x37, 0x22, 0x3a, 0x20, 0x7b, 0x0a, 0x20, 0x20, 0x20, 0x20, 0x20, 0x20, 0x20, 0x20, 0x20,
    0x20, 0x20, 0x20, 0x20, 0x20, 0x20, 0x20, 0x20, 0x20, 0x22, 0x66, 0x72, 0x61, 0x6d, 0x65, 0x5f, 0x63, 0x6f, 0x75,
    0x6e, 0x74, 0x22, 0x3a, 0x20, 0x33, 0x36, 0x0a, 0x20, 0x20, 0x20, 0x20, 0x20, 0x20, 0x20, 0x20, 0x20, 0x20, 0x20,
    0x20, 0x20, 0x20, 0x20, 0x20, 0x7d, 0x0a, 0x20, 0x20, 0x20, 0x20, 0x20, 0x20, 0x20, 0x20, 0x20, 0x20, 0x20, 0x20,
    0x20, 0x20, 0x7d, 0x0a, 0x20, 0x20, 0x20, 0x20, 0x20, 0x20, 0x20, 0x20, 0x20, 0x20, 0x20, 0x20, 0x7d, 0x0a, 0x20,
    0x20, 0x20, 0x20, 0x20, 0x20, 0x20, 0x20, 0x20, 0x20, 0x7d, 0x0a, 0x20, 0x20, 0x20, 0x20, 0x20, 0x20, 0x20, 0x20,
    0x7d, 0x2c, 0x0a, 0x20, 0x20, 0x20, 0x20, 0x20, 0x20, 0x20, 0x20, 0x22, 0x31, 0x22, 0x3a, 0x20, 0x7b, 0x0a, 0x20,
    0x20, 0x20, 0x20, 0x20, 0x20, 0x20, 0x20, 0x20, 0x20, 0x22, 0x63, 0x6f, 0x6e, 0x66, 0x69, 0x67, 0x75, 0x72, 0x61,
    0x74, 0x69, 0x6f, 0x6e, 0x5f, 0x62, 0x75, 0x73, 0x65, 0x73, 0x22, 0x3a, 0x20, 0x7b, 0x0a, 0x20, 0x20, 0x20, 0x20,
    0x20, 0x20, 0x20, 0x20, 0x20, 0x20, 0x20, 0x20, 0x22, 0x42, 0x4c, 0x4f, 0x43, 0x4b, 0x5f, 0x52, 0x41, 0x4d, 0x22,
    0x3a, 0x20, 0x7b, 0x0a, 0x20, 0x20, 0x20, 0x20, 0x20, 0x20, 0x20, 0x20, 0x20, 0x20, 0x20, 0x20, 0x20, 0x20, 0x22,
    0x63, 0x6f, 0x6e, 0x66, 0x69, 0x67, 0x75, 0x72, 0x61, 0x74, 0x69, 0x6f, 0x6e, 0x5f, 0x63, 0x6f, 0x6c, 0x75, 0x6d,
    0x6e, 0x73, 0x22, 0x3a, 0x20, 0x7b, 0x0a, 0x20, 0x20, 0x20, 0x20, 0x20, 0x20, 0x20, 0x20, 0x20, 0x20, 0x20, 0x20,
    0x20, 0x20, 0x20, 0x20, 0x22, 0x30, 0x22, 0x3a, 0x20, 0x7b, 0x0a, 0x20, 0x20, 0x20, 0x20, 0x20, 0x20, 0x20, 0x20,
    0x20, 0x20, 0x20, 0x20, 0x20, 0x20, 0x20, 0x20, 0x20, 0x20, 0x22, 0x66, 0x72, 0x61, 0x6d, 0x65, 0x5f, 0x63, 0x6f,
    0x75, 0x6e, 0x74, 0x22, 0x3a, 0x20, 0x31, 0x32, 0x38, 0x0a, 0x20, 0x20, 0x20, 0x20, 0x20, 0x20, 0x20, 0x20, 0x20,
    0x20, 0x20, 0x20, 0x20, 0x20, 0x20, 0x20, 0x7d, 0x2c, 0x0a, 0x20, 0x20, 0x20, 0x20, 0x20, 0x20, 0x20, 0x20, 0x20,
    0x20, 0x20, 0x20, 0x20, 0x20, 0x20, 0x20, 0x22, 0x31, 0x22, 0x3a, 0x20, 0x7b, 0x0a, 0x20, 0x20, 0x20, 0x20, 0x20,
    0x20, 0x20, 0x20, 0x20, 0x20, 0x20, 0x20, 0x20, 0x20, 0x20, 0x20, 0x20, 0x20, 0x22, 0x66, 0x72, 0x61, 0x6d, 0x65,
    0x5f, 0x63, 0x6f, 0x75, 0x6e, 0x74, 0x22, 0x3a, 0x20, 0x31, 0x32, 0x38, 0x0a, 0x20, 0x20, 0x20, 0x20, 0x20, 0x20,
    0x20, 0x20, 0x20, 0x20, 0x20, 0x20, 0x20, 0x20, 0x20, 0x20, 0x7d, 0x0a, 0x20, 0x20, 0x20, 0x20, 0x20, 0x20, 0x20,
    0x20, 0x20, 0x20, 0x20, 0x20, 0x20, 0x20, 0x7d, 0x0a, 0x20, 0x20, 0x20, 0x20, 0x20, 0x20, 0x20, 0x20, 0x20, 0x20,
    0x20, 0x20, 0x7d, 0x2c, 0x0a, 0x20, 0x20, 0x20, 0x20, 0x20, 0x20, 0x20, 0x20, 0x20, 0x20, 0x20, 0x20, 0x22, 0x43,
    0x4c, 0x42, 0x5f, 0x49, 0x4f, 0x5f, 0x43, 0x4c, 0x4b, 0x22, 0x3a, 0x20, 0x7b, 0x0a, 0x20, 0x20, 0x20, 0x20, 0x20,
    0x20, 0x20, 0x20, 0x20, 0x20, 0x20, 0x20, 0x20, 0x20, 0x22, 0x63, 0x6f, 0x6e, 0x66, 0x69, 0x67, 0x75, 0x72, 0x61,
    0x74, 0x69, 0x6f, 0x6e, 0x5f, 0x63, 0x6f, 0x6c, 0x75, 0x6d, 0x6e, 0x73, 0x22, 0x3a, 0x20, 0x7b, 0x0a, 0x20, 0x20,
    0x20, 0x20, 0x20, 0x20, 0x20, 0x20, 0x20, 0x20, 0x20, 0x20, 0x20, 0x20, 0x20, 0x20, 0x22, 0x30, 0x22, 0x3a, 0x20,
    0x7b, 0x0a, 0x20, 0x20, 0x20, 0x20, 0x20, 0x20, 0x20, 0x20, 0x20, 0x20, 0x20, 0x20, 0x20, 0x20, 0x20, 0x20, 0x20,
    0x20, 0x22, 0x66, 0x72, 0x61, 0x6d, 0x65, 0x5f, 0x63, 0x6f, 0x75, 0x6e, 0x74, 0x22, 0x3a, 0x20, 0x34, 0x32, 0x0a,
    0x20, 0x20, 0x20, 0x20, 0x20, 0x20, 0x20, 0x20, 0x20, 0x20, 0x20, 0x20, 0x20, 0x20, 0x20, 0x20, 0x7d, 0x2c, 0x0a,
    0x20, 0x20, 0x20, 0x20, 0x20, 0x20, 0x20, 0x20, 0x20, 0x20, 0x20, 0x20, 0x20, 0x20, 0x20, 0x20, 0x22, 0x31, 0x22,
    0x3a, 0x20, 0x7b, 0x0a, 0x20, 0x20, 0x20, 0x20, 0x20, 0x20, 0x20, 0x20, 0x20, 0x20, 0x20, 0x20, 0x20, 0x20, 0x20,
    0x20, 0x20, 0x20, 0x22, 0x66, 0x72, 0x61, 0x6d, 0x65, 0x5f, 0x63, 0x6f, 0x75, 0x6e, 0x74, 0x22, 0x3a, 0x20, 0x33,
    0x30, 0x0a, 0x20, 0x20, 0x20, 0x20, 0x20, 0x20, 0x20, 0x20, 0x20, 0x20, 0x20, 0x20, 0x20, 0x20, 0x20, 0x20, 0x7d,
    0x2c, 0x0a, 0x20, 0x20, 0x20, 0x20, 0x20, 0x20, 0x20, 0x20, 0x20, 0x20, 0x20, 0x20, 0x20, 0x20, 0x20, 0x20, 0x22,
    0x32, 0x22, 0x3a, 0x20, 0x7b, 0x0a, 0x20, 0x20, 0x20, 0x20, 0x20, 0x20, 0x20, 0x20, 0x20, 0x20, 0x20, 0x20, 0x20,
    0x20, 0x20, 0x20, 0x20, 0x20, 0x22, 0x66, 0x72, 0x61, 0x6d, 0x65, 0x5f, 0x63, 0x6f, 0x75, 0x6e, 0x74, 0x22, 0x3a,
    0x20, 0x33, 0x36, 0x0a, 0x20, 0x20, 0x20, 0x20, 0x20, 0x20, 0x20, 0x20, 0x20, 0x20, 0x20, 0x20, 0x20, 0x20, 0x20,
    0x20, 0x7d, 0x0a, 0x20, 0x20, 0x20, 0x20, 0x20, 0x20, 0x20, 0x20, 0x20, 0x20, 0x20, 0x20, 0x20, 0x20, 0x7d, 0x0a,
    0x20, 0x20, 0x20, 0x20, 0x20, 0x20, 0x20, 0x20, 0x20, 0x20, 0x20, 0x20, 0x7d, 0x0a, 0x20, 0x20, 0x20, 0x20, 0x20,
    0x20, 0x20, 0x20, 0x20, 0x20, 0x7d, 0x0a, 0x20, 0x20, 0x20, 0x20, 0x20, 0x20, 0x20, 0x20, 0x7d, 0x0a, 0x20, 0x20,
    0x20, 0x20, 0x20, 0x20, 0x7d, 0x0a, 0x20, 0x20, 0x20, 0x20, 0x7d, 0x0a, 0x20, 0x20, 0x7d, 0x2c, 0x0a, 0x20, 0x20,
    0x22, 0x69, 0x64, 0x63, 0x6f, 0x64, 0x65, 0x22, 0x3a, 0x20, 0x35, 0x36, 0x38, 0x30, 0x37, 0x35, 0x37, 0x31, 0x2c,
    0x0a, 0x20, 0x20, 0x22, 0x69, 0x6f, 0x62, 0x61, 0x6e, 0x6b, 0x73, 0x22, 0x3a, 0x20, 0x7b, 0x0a, 0x20, 0x20, 0x20,
    0x20, 0x22, 0x30, 0x22, 0x3a, 0x20, 0x22, 0x58, 0x31, 0x59, 0x37, 0x38, 0x22, 0x2c, 0x0a, 0x20, 0x20, 0x20, 0x20,
    0x22, 0x31, 0x34, 0x22, 0x3a, 0x20, 0x22, 0x58, 0x31, 0x59, 0x32, 0x36, 0x22, 0x2c, 0x0a, 0x20, 0x20, 0x20, 0x20,
    0x22, 0x31, 0x35, 0x22, 0x3a, 0x20, 0x22, 0x58, 0x31, 0x59, 0x37, 0x38, 0x22, 0x2c, 0x0a, 0x20, 0x20, 0x20, 0x20,
    0x22, 0x31, 0x36, 0x22, 0x3a, 0x20, 0x22, 0x58, 0x31, 0x59, 0x31, 0x33, 0x30, 0x22, 0x2c, 0x0a, 0x20, 0x20, 0x20,
    0x20, 0x22, 0x33, 0x34, 0x22, 0x3a, 0x20, 0x22, 0x58, 0x31, 0x31, 0x33, 0x59, 0x32, 0x36, 0x22, 0x2c, 0x0a, 0x20,
    0x20, 0x20, 0x20, 0x22, 0x33, 0x35, 0x22, 0x3a, 0x20, 0x22, 0x58, 0x31, 0x31, 0x33, 0x59, 0x37, 0x38, 0x22, 0x0a,
    0x20, 0x20, 0x7d, 0x0a, 0x7d]
example : JsonText.parseTileGridJSON (fun _ => false) sampleGridText = parseTileGrid sampleGrid := by decide +kernel
example : JsonText.parsePartJSON (fun _ => false) samplePartText = parsePart samplePart := by decide +kernel
/- `EmptyTileGrid`: "" -/
example : JsonText.parseTileGridJSON (fun _ => false) [] = .err := by decide +kernel
/- `EmptyTileGrid`: "[]" -/
example : JsonText.parseTileGridJSON (fun _ => false) [0x5b, 0x5d] = .err := by decide +kernel
/- `EmptyTileGrid`: "  " -/
example : JsonText.parseTileGridJSON (fun _ => false) [0x20, 0x20] = .err := by decide +kernel
/- `EmptyTileGrid`: "\n\n" -/
example : JsonText.parseTileGridJSON (fun _ => false) [0x0a, 0x0a] = .err := by decide +kernel
/- `EmptyTileGrid`: "32" -/
example : JsonText.parseTileGridJSON (fun _ => false) [0x33, 0x32] = .err := by decide +kernel
/- `EmptyTileGrid`: "asd" -/
example : JsonText.parseTileGridJSON (fun _ => false) [0x61, 0x73, 0x64] = .err := by decide +kernel
/- `EmptyTileGrid`: "{\n  \"TILE_A\": {\n    \"bits\": {},\n    \"grid_x\": 72,\n    \"grid_y\": 26,\n    \"pin_functions\": {},\n    \"prohibited_sites\": [],\n    \"type\": \"HCLK_L_BOT_UTURN\"\n  },\n}" -/
example : JsonText.parseTileGridJSON (fun _ => false) [0x7b, 0x0a, 0x20, 0x20, 0x22, 0x54, 0x49, 0x4c, 0x45, 0x5f,
    0x41, 0x22, 0x3a, 0x20, 0x7b, 0x0a, 0x20, 0x20, 0x20, 0x20, 0x22, 0x62, 0x69, 0x74, 0x73, 0x22, 0x3a, 0x20, 0x7b,
    0x7d, 0x2c, 0x0a, 0x20, 0x20, 0x20, 0x20, 0x22, 0x67, 0x72, 0x69, 0x64, 0x5f, 0x78, 0x22, 0x3a, 0x20, 0x37, 0x32,
    0x2c, 0x0a, 0x20, 0x20, 0x20, 0x20, 0x22, 0x67, 0x72, 0x69, 0x64, 0x5f, 0x79, 0x22, 0x3a, 0x20, 0x32, 0x36, 0x2c,
    0x0a, 0x20, 0x20, 0x20, 0x20, 0x22, 0x70, 0x69, 0x6e, 0x5f, 0x66, 0x75, 0x6e, 0x63, 0x74, 0x69, 0x6f, 0x6e, 0x73,
    0x22, 0x3a, 0x20, 0x7b, 0x7d, 0x2c, 0x0a, 0x20, 0x20, 0x20, 0x20, 0x22, 0x70, 0x72, 0x6f, 0x68, 0x69, 0x62, 0x69,
    0x74, 0x65, 0x64, 0x5f, 0x73, 0x69, 0x74, 0x65, 0x73, 0x22, 0x3a, 0x20, 0x5b, 0x5d, 0x2c, 0x0a, 0x20, 0x20, 0x20,
    0x20, 0x22, 0x74, 0x79, 0x70, 0x65, 0x22, 0x3a, 0x20, 0x22, 0x48, 0x43, 0x4c, 0x4b, 0x5f, 0x4c, 0x5f, 0x42, 0x4f,
    0x54, 0x5f, 0x55, 0x54, 0x55, 0x52, 0x4e, 0x22, 0x0a, 0x20, 0x20, 0x7d, 0x2c, 0x0a,
    0x7d] = .err := by decide +kernel
/-- `kSamplePartsMapperYAML`. -/
def samplePartsYaml : Bytes := [0x0a, 0x78, 0x63, 0x37, 0x61, 0x31, 0x30, 0x30, 0x74, 0x63, 0x73, 0x67, 0x33, 0x32,
    0x34, 0x2d, 0x33, 0x3a, 0x0a, 0x20, 0x20, 0x64, 0x65, 0x76, 0x69, 0x63, 0x65, 0x3a, 0x20, 0x78, 0x63, 0x37, 0x61,
    0x31, 0x30, 0x30, 0x74, 0x0a, 0x20, 0x20, 0x70, 0x61, 0x63, 0x6b, 0x61, 0x67, 0x65, 0x3a, 0x20, 0x63, 0x73, 0x67,
    0x33, 0x32, 0x34, 0x0a, 0x20, 0x20, 0x73, 0x70, 0x65, 0x65, 0x64, 0x67, 0x72, 0x61, 0x64, 0x65, 0x3a, 0x20, 0x27,
    0x33, 0x27, 0x0a, 0x78, 0x63, 0x37, 0x61, 0x33, 0x35, 0x74, 0x63, 0x70, 0x67, 0x32, 0x33, 0x36, 0x2d, 0x32, 0x4c,
    0x3a, 0x0a, 0x20, 0x20, 0x64, 0x65, 0x76, 0x69, 0x63, 0x65, 0x3a, 0x20, 0x78, 0x63, 0x37, 0x61, 0x33, 0x35, 0x74,
    0x0a, 0x20, 0x20, 0x70, 0x61, 0x63, 0x6b, 0x61, 0x67, 0x65, 0x3a, 0x20, 0x63, 0x70, 0x67, 0x32, 0x33, 0x36, 0x0a,
    0x20, 0x20, 0x73, 0x70, 0x65, 0x65, 0x64, 0x67, 0x72, 0x61, 0x64, 0x65, 0x3a, 0x20, 0x32, 0x4c, 0x0a, 0x78, 0x63,
    0x37, 0x61, 0x35, 0x30, 0x74, 0x63, 0x70, 0x67, 0x32, 0x33, 0x36, 0x2d, 0x31, 0x3a, 0x0a, 0x20, 0x20, 0x64, 0x65,
    0x76, 0x69, 0x63, 0x65, 0x3a, 0x20, 0x78, 0x63, 0x37, 0x61, 0x35, 0x30, 0x74, 0x0a, 0x20, 0x20, 0x70, 0x61, 0x63,
    0x6b, 0x61, 0x67, 0x65, 0x3a, 0x20, 0x63, 0x70, 0x67, 0x32, 0x33, 0x36, 0x0a, 0x20, 0x20, 0x73, 0x70, 0x65, 0x65,
    0x64, 0x67, 0x72, 0x61, 0x64, 0x65, 0x3a, 0x20, 0x27, 0x31, 0x27, 0x0a]
/-- `kSampleDevicesMapperYAML`. -/
def sampleDevicesYaml : Bytes := [0x0a, 0x22, 0x78, 0x63, 0x37, 0x61, 0x31, 0x30, 0x30, 0x74, 0x22, 0x3a, 0x0a, 0x20,
    0x20, 0x66, 0x61, 0x62, 0x72, 0x69, 0x63, 0x3a, 0x20, 0x22, 0x78, 0x63, 0x37, 0x61, 0x31, 0x30, 0x30, 0x74, 0x22,
    0x0a, 0x22, 0x78, 0x63, 0x37, 0x61, 0x35, 0x30, 0x74, 0x22, 0x3a, 0x0a, 0x20, 0x20, 0x66, 0x61, 0x62, 0x72, 0x69,
    0x63, 0x3a, 0x20, 0x22, 0x78, 0x63, 0x37, 0x61, 0x35, 0x30, 0x74, 0x22, 0x0a, 0x22, 0x78, 0x63, 0x37, 0x61, 0x33,
    0x35, 0x74, 0x22, 0x3a, 0x0a, 0x20, 0x20, 0x66, 0x61, 0x62, 0x72, 0x69, 0x63, 0x3a, 0x20, 0x22, 0x78, 0x63, 0x37,
    0x61, 0x35, 0x30, 0x74, 0x22, 0x0a]
example : parsePartsInfos samplePartsYaml sampleDevicesYaml = .ok [([0x78, 0x63, 0x37, 0x61, 0x31, 0x30, 0x30, 0x74,
    0x63, 0x73, 0x67, 0x33, 0x32, 0x34, 0x2d, 0x33], ⟨[0x78, 0x63, 0x37, 0x61, 0x31, 0x30, 0x30, 0x74], [0x78, 0x63,
    0x37, 0x61, 0x31, 0x30, 0x30, 0x74], [0x63, 0x73, 0x67, 0x33, 0x32, 0x34], [0x33]⟩), ([0x78, 0x63, 0x37, 0x61,
    0x33, 0x35, 0x74, 0x63, 0x70, 0x67, 0x32, 0x33, 0x36, 0x2d, 0x32, 0x4c], ⟨[0x78, 0x63, 0x37, 0x61, 0x33, 0x35,
    0x74], [0x78, 0x63, 0x37, 0x61, 0x35, 0x30, 0x74], [0x63, 0x70, 0x67, 0x32, 0x33, 0x36], [0x32, 0x4c]⟩), ([0x78,
    0x63, 0x37, 0x61, 0x35, 0x30, 0x74, 0x63, 0x70, 0x67, 0x32, 0x33, 0x36, 0x2d, 0x31], ⟨[0x78, 0x63, 0x37, 0x61,
    0x35, 0x30, 0x74], [0x78, 0x63, 0x37, 0x61, 0x35, 0x30, 0x74], [0x63, 0x70, 0x67, 0x32, 0x33, 0x36],
    [0x31]⟩)] := by decide +kernel
/-- The registry of `database_test.cc`. -/
def sampleRegistry : Registry := Registry.create id
  { bottomRows := [], topRows := [], idcode := 0#32, iobanks := [(0, [0x58, 0x31, 0x59, 0x37, 0x38]), (3, [0x58,
    0x32, 0x59, 0x34, 0x33]), (4, [0x58, 0x31, 0x59, 0x37, 0x38])] }
  [⟨[], 0, [], [0x4c, 0x49, 0x4f, 0x42, 0x33, 0x33, 0x5f, 0x58, 0x30, 0x59, 0x39, 0x33], []⟩, ⟨[], 216, [], [0x47,
    0x54, 0x50, 0x5f, 0x43, 0x48, 0x41, 0x4e, 0x4e, 0x45, 0x4c, 0x5f, 0x31, 0x5f, 0x58, 0x39, 0x37, 0x59, 0x31, 0x32,
    0x31], []⟩, ⟨[], 0, [], [0x48, 0x43, 0x4c, 0x4b, 0x5f, 0x49, 0x4f, 0x49, 0x33, 0x5f, 0x58, 0x31, 0x59, 0x37,
    0x39], []⟩]
example : sampleRegistry.tiles 0 = some [[0x48, 0x43, 0x4c, 0x4b, 0x5f, 0x49, 0x4f, 0x49, 0x33, 0x5f, 0x58, 0x31,
    0x59, 0x37, 0x38], [0x4c, 0x49, 0x4f, 0x42, 0x33, 0x33, 0x5f, 0x58, 0x30, 0x59, 0x39, 0x33], [0x48, 0x43, 0x4c,
    0x4b, 0x5f, 0x49, 0x4f, 0x49, 0x33, 0x5f, 0x58, 0x31, 0x59, 0x37, 0x39]] := by decide +kernel
example : 0 ∈ sampleRegistry.tileBanks [0x48, 0x43, 0x4c, 0x4b, 0x5f, 0x49, 0x4f, 0x49, 0x33, 0x5f, 0x58, 0x31, 0x59,
    0x37, 0x38] := by decide +kernel
example : 0 ∈ sampleRegistry.tileBanks [0x4c, 0x49, 0x4f, 0x42, 0x33, 0x33, 0x5f, 0x58, 0x30, 0x59, 0x39,
    0x33] := by decide +kernel
example : 0 ∈ sampleRegistry.tileBanks [0x48, 0x43, 0x4c, 0x4b, 0x5f, 0x49, 0x4f, 0x49, 0x33, 0x5f, 0x58, 0x31, 0x59,
    0x37, 0x39] := by decide +kernel
example : sampleRegistry.tiles 3 = some [[0x48, 0x43, 0x4c, 0x4b, 0x5f, 0x49, 0x4f, 0x49, 0x33, 0x5f, 0x58, 0x32,
    0x59, 0x34, 0x33]] := by decide +kernel
example : 3 ∈ sampleRegistry.tileBanks [0x48, 0x43, 0x4c, 0x4b, 0x5f, 0x49, 0x4f, 0x49, 0x33, 0x5f, 0x58, 0x32, 0x59,
    0x34, 0x33] := by decide +kernel
example : sampleRegistry.tiles 4 = some [[0x48, 0x43, 0x4c, 0x4b, 0x5f, 0x49, 0x4f, 0x49, 0x33, 0x5f, 0x58, 0x31,
    0x59, 0x37, 0x38]] := by decide +kernel
example : 4 ∈ sampleRegistry.tileBanks [0x48, 0x43, 0x4c, 0x4b, 0x5f, 0x49, 0x4f, 0x49, 0x33, 0x5f, 0x58, 0x31, 0x59,
    0x37, 0x38] := by decide +kernel
example : sampleRegistry.tiles 216 = some [[0x47, 0x54, 0x50, 0x5f, 0x43, 0x48, 0x41, 0x4e, 0x4e, 0x45, 0x4c, 0x5f,
    0x31, 0x5f, 0x58, 0x39, 0x37, 0x59, 0x31, 0x32, 0x31]] := by decide +kernel
example : 216 ∈ sampleRegistry.tileBanks [0x47, 0x54, 0x50, 0x5f, 0x43, 0x48, 0x41, 0x4e, 0x4e, 0x45, 0x4c, 0x5f,
    0x31, 0x5f, 0x58, 0x39, 0x37, 0x59, 0x31, 0x32, 0x31] := by decide +kernel
end DbTests

end Verif.Conformance
