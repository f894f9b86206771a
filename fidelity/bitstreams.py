# Writes /tmp/Bitstreams.lean: the model run on the data files of configuration-xc7_test.cc.
# cd /verif/lean && ulimit -s unlimited && lake env lean --run /tmp/Bitstreams.lean   (about 4 minutes)
import json
exec(open('/verif/fidelity/conformance.py').read().split("out=[]")[0])
def js(v):
    if isinstance(v,dict): return '.obj ['+', '.join(f'({bs(k)}, {js(x)})' for k,x in v.items())+']'
    if isinstance(v,list): return '.arr ['+', '.join(map(js,v))+']'
    if isinstance(v,str): return f'.str {bs(v)}'
    if isinstance(v,int): return f'.int {v}'
p=json.load(open('/repo/fpga/xilinx/testdata/xc7-configuration-test.json'))
print(p.keys(), p['idcode'])
open('/tmp/Bitstreams.lean','w').write(f'''import Verif.Model.Configuration
import Verif.Model.DbJson
import Verif.Model.Reader
open Verif Verif.Xc7
set_option maxRecDepth 100000
def pj : Db.Json := {js(p)}
def part : Xc7.Part := match Db.parsePart pj with
  | .ok p => match Part.fromPart p with | .ok q => q | _ => ⟨0,[],[]⟩
  | _ => ⟨0,[],[]⟩
def walk : Nat → FrameAddress → Nat
  | 0, _ => 0
  | n+1, a => match part.next a with | none => 1 | some b => 1 + walk n b
def load (f : String) : IO (Option (BMap (List Word))) := do
  let b ← IO.FS.readBinFile f
  let bytes := b.toList
  match decodeFile part bytes 2000000 with
  | some (.ok (some c)) => return some c.frames
  | some (.ok none) => IO.println "none"; return none
  | some _ => IO.println "bad"; return none
  | none => IO.println "fuel"; return none
def main : IO Unit := do
  IO.println s!"idcode {{part.idcode.toNat}} walk {{walk 100000 0#32}}"
  let d := "/repo/fpga/xilinx/testdata/"
  let mut rs := #[]
  for f in ["xc7-configuration.bit", "xc7-configuration.debug.bit", "xc7-configuration.perframecrc.bit"] do
    match ← load (d ++ f) with
    | some fr =>
      IO.println s!"{{f}} frames {{fr.length}}"
      let bad := fr.filter fun e => e.2.length ≠ 101
      IO.println s!"  bad length {{bad.length}}"
      let ecc := fr.filter fun e => match updateECC e.2 with | .ok w => w ≠ e.2 | _ => true
      IO.println s!"  frames whose ECC differs from CalculateECC {{ecc.length}}"
      rs := rs.push fr
    | none => IO.println s!"{{f}} failed"
  if h : rs.size = 3 then
    IO.println s!"equal {{decide (rs[0] = rs[1])}} {{decide (rs[1] = rs[2])}}"
''')
