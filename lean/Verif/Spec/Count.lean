import Verif.Spec.Geometry
/-! # Specification: number of frames of a part -/
namespace Verif.Spec
open Verif.Xc7

/-- Total of all column frame counts of one half. -/
def halfFrames (g : Region) : Nat :=
  (g.map fun r => (r.2.map fun b => (b.2.map fun c => c.2.frameCount).sum).sum).sum

/-- Total number of frames of a part. -/
def totalFrames (p : Part) : Nat := halfFrames p.top + halfFrames p.bottom

end Verif.Spec
