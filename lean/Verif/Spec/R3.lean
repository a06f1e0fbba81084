import Verif.Model.XR
/-!
# Specification: real 3-space

Textbook definitions on real triples; independent of the model's functions.
-/
namespace Goosli
noncomputable section
namespace R3

instance : Add R3 := ⟨fun a b => ⟨a.x + b.x, a.y + b.y, a.z + b.z⟩⟩
instance : Sub R3 := ⟨fun a b => ⟨a.x - b.x, a.y - b.y, a.z - b.z⟩⟩
instance : Neg R3 := ⟨fun a => ⟨-a.x, -a.y, -a.z⟩⟩
instance : Zero R3 := ⟨⟨0, 0, 0⟩⟩
instance : SMul ℝ R3 := ⟨fun t a => ⟨t * a.x, t * a.y, t * a.z⟩⟩

@[simp] theorem add_x (a b : R3) : (a + b).x = a.x + b.x := rfl
@[simp] theorem add_y (a b : R3) : (a + b).y = a.y + b.y := rfl
@[simp] theorem add_z (a b : R3) : (a + b).z = a.z + b.z := rfl
@[simp] theorem sub_x (a b : R3) : (a - b).x = a.x - b.x := rfl
@[simp] theorem sub_y (a b : R3) : (a - b).y = a.y - b.y := rfl
@[simp] theorem sub_z (a b : R3) : (a - b).z = a.z - b.z := rfl
@[simp] theorem neg_x (a : R3) : (-a).x = -a.x := rfl
@[simp] theorem neg_y (a : R3) : (-a).y = -a.y := rfl
@[simp] theorem neg_z (a : R3) : (-a).z = -a.z := rfl
@[simp] theorem zero_x : (0 : R3).x = 0 := rfl
@[simp] theorem zero_y : (0 : R3).y = 0 := rfl
@[simp] theorem zero_z : (0 : R3).z = 0 := rfl
@[simp] theorem smul_x (t : ℝ) (a : R3) : (t • a).x = t * a.x := rfl
@[simp] theorem smul_y (t : ℝ) (a : R3) : (t • a).y = t * a.y := rfl
@[simp] theorem smul_z (t : ℝ) (a : R3) : (t • a).z = t * a.z := rfl

/-- scalar product -/
def dot (a b : R3) : ℝ := a.x * b.x + a.y * b.y + a.z * b.z
/-- vector product -/
def cross (a b : R3) : R3 := ⟨a.y * b.z - a.z * b.y, a.z * b.x - a.x * b.z, a.x * b.y - a.y * b.x⟩
/-- squared length -/
def normSq (a : R3) : ℝ := a.dot a
/-- length -/
def norm (a : R3) : ℝ := Real.sqrt a.normSq
/-- Euclidean distance -/
def dist (a b : R3) : ℝ := (b - a).norm

/-- length of a polyline -/
def polyLen : List R3 → ℝ
  | [] => 0
  | [_] => 0
  | a :: b :: l => dist a b + polyLen (b :: l)

theorem normSq_nonneg (a : R3) : 0 ≤ a.normSq := by
  unfold normSq dot; nlinarith [mul_self_nonneg a.x, mul_self_nonneg a.y, mul_self_nonneg a.z]

theorem norm_nonneg (a : R3) : 0 ≤ a.norm := Real.sqrt_nonneg _

theorem dist_nonneg (a b : R3) : 0 ≤ dist a b := norm_nonneg _

theorem pt_inj {a b : R3} (h : a.pt = b.pt) : a = b := by
  simp only [pt, Point.mk.injEq, XR.fin_inj] at h
  exact R3.ext h.1 h.2.1 h.2.2

theorem vec_inj {a b : R3} (h : a.vec = b.vec) : a = b := by
  simp only [vec, Vec.mk.injEq, XR.fin_inj] at h
  exact R3.ext h.1 h.2.1 h.2.2

end R3
end
end Goosli
