import Verif.Model.Camera
import Verif.Model.RealScalar
import Mathlib.LinearAlgebra.Matrix.Notation
import Mathlib.LinearAlgebra.Matrix.Determinant.Basic
import Mathlib.LinearAlgebra.CrossProduct
import Mathlib.Analysis.InnerProductSpace.PiL2

/-!
# Specification vocabulary

Plain mathematical notions, defined with Mathlib only and independently of the functions of the
model.  `a ⬝ᵥ b` is Mathlib's dot product, `a ⨯₃ b` its cross product, `M *ᵥ v` matrix times vector.
-/

namespace CamGeom.Spec

/-- A vector or point of 3-space. -/
abbrev Vec := Fin 3 → ℝ

/-- Euclidean length. -/
noncomputable def len (v : Vec) : ℝ := Real.sqrt (∑ i, v i ^ 2)

/-- Euclidean distance. -/
noncomputable def distance (a b : Vec) : ℝ := len (a - b)

/-- Signed volume (times six) of the tetrahedron `a b c d`. -/
def volume (a b c d : Vec) : ℝ := (Matrix.of ![b - a, c - a, d - a]).det

/-- A quaternion of norm one, i.e. a legal `UnitQuaternion`. -/
def UnitQuat (q : Quat ℝ) : Prop := q.w ^ 2 + q.i ^ 2 + q.j ^ 2 + q.k ^ 2 = 1

/-- A proper rotation matrix. -/
def IsRotation (M : Fin 3 → Fin 3 → ℝ) : Prop :=
  (Matrix.of M).transpose * Matrix.of M = 1 ∧ (Matrix.of M).det = 1

/-- The line through `p` with direction `d`. -/
def line (p d : Vec) : Set Vec := {y | ∃ t : ℝ, y = p + t • d}

/-- The open half line from `p` towards `d`. -/
def halfLine (p d : Vec) : Set Vec := {y | ∃ t : ℝ, 0 < t ∧ y = p + t • d}

/-- Distance from a point to a set of points. -/
noncomputable def distTo (s : Set Vec) (x : Vec) : ℝ := sInf (distance x '' s)

/-- Sum of squared distances from a point to the lines through the given rays. -/
noncomputable def cost {F : Type} (rays : List (Ray F ℝ)) (x : Vec) : ℝ :=
  (rays.map fun r => distTo (line r.center r.direction) x ^ 2).sum

/-- `x` is a least-squares intersection point of the lines. -/
def LeastSquares {F : Type} (rays : List (Ray F ℝ)) (x : Vec) : Prop :=
  ∀ y, cost rays x ≤ cost rays y

/-- Some two of the rays have directions with `|cos angle| < 1 - 1e-7`. -/
def Spread {F : Type} (rays : List (Ray F ℝ)) : Prop :=
  ∃ r₁ ∈ rays, ∃ r₂ ∈ rays,
    |dotProduct r₁.direction r₂.direction| <
      (1 - 1 / 10000000) * (len r₁.direction * len r₂.direction)

/-- The pinhole projection formula with skew. -/
noncomputable def pinhole (fx fy skew cx cy : ℝ) (x : Vec) : Fin 2 → ℝ :=
  ![fx * (x 0 / x 2) + skew * (x 1 / x 2) + cx, fy * (x 1 / x 2) + cy]

/-- The orthographic projection formula. -/
def orthographic (sx sy cx cy : ℝ) (x : Vec) : Fin 2 → ℝ := ![sx * x 0 + cx, sy * x 1 + cy]

/-- Homogeneous image `P (x, 1)` of a point under a 3x4 matrix. -/
def homImage (P : Fin 3 → Fin 4 → ℝ) (x : Vec) : Vec :=
  (Matrix.of P).mulVec ![x 0, x 1, x 2, 1]

/-- Projection by a 3x4 matrix: homogeneous image divided by its third component. -/
noncomputable def homProject (P : Fin 3 → Fin 4 → ℝ) (x : Vec) : Fin 2 → ℝ :=
  ![homImage P x 0 / homImage P x 2, homImage P x 1 / homImage P x 2]

/-- Extrinsics built by the crate from a legal rotation and any camera centre. -/
def ValidExtrinsics (e : ExtrinsicParameters ℝ) : Prop :=
  ∃ q c, UnitQuat q ∧ e = ExtrinsicParameters.fromRotationAndCamcenter q c

end CamGeom.Spec

namespace CamGeom

/-- A batch consisting of a single point. -/
def Points.single {F R : Type} (x : Fin 3 → R) : Points F R 1 := ⟨fun _ => x⟩

/-- A batch consisting of a single pixel. -/
def Pixels.single {R : Type} (x : Fin 2 → R) : Pixels R 1 := ⟨fun _ => x⟩

/-- A bundle with the single ray given by row `i`. -/
def RayBundle.rayAlone {F B R : Type} {n : ℕ} (b : RayBundle F B R n) (i : Fin n) :
    RayBundle F B R 1 := ⟨fun _ => b.data i, b.bundleType⟩

end CamGeom
