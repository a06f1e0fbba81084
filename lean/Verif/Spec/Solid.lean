import Verif.Spec.R3
/-!
# Specification: triangle meshes with real vertices
-/
namespace Goosli

/-- a triangle given by its three vertices -/
@[ext] structure RTri where
  a : R3
  b : R3
  c : R3

namespace RTri

/-- right-hand normal (twice the area vector) -/
noncomputable def nrm (t : RTri) : R3 := (t.b - t.a).cross (t.c - t.a)

/-- the triangle with the normal the constructors store -/
noncomputable def tri (t : RTri) : Triangle XR := ⟨t.nrm.vec, t.a.pt, t.b.pt, t.c.pt⟩

/-- apply a point map -/
def map (f : R3 → R3) (t : RTri) : RTri := ⟨f t.a, f t.b, f t.c⟩

/-- the vertices -/
def verts (t : RTri) : List R3 := [t.a, t.b, t.c]

end RTri

/-- the mesh of a list of triangles -/
noncomputable def rmesh (ts : List RTri) : Mesh XR := ⟨ts.map RTri.tri⟩

namespace R3

/-- counterclockwise rotation by `φ` radians about the x axis -/
noncomputable def rotX (φ : ℝ) (v : R3) : R3 :=
  ⟨v.x, Real.cos φ * v.y - Real.sin φ * v.z, Real.sin φ * v.y + Real.cos φ * v.z⟩

/-- counterclockwise rotation by `φ` radians about the z axis -/
noncomputable def rotZ (φ : ℝ) (v : R3) : R3 :=
  ⟨Real.cos φ * v.x - Real.sin φ * v.y, Real.sin φ * v.x + Real.cos φ * v.y, v.z⟩

end R3

/-- degrees to radians -/
noncomputable def rad (deg : ℝ) : ℝ := Real.pi * deg / 180

end Goosli
