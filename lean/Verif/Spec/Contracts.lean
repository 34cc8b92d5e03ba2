import Verif.Spec.Geometry

/-!
# What is assumed about the nalgebra routines kept as parameters

`Verif.Lemmas.RotationToQuat` and `Verif.Lemmas.Householder` prove the first two for the algorithms of
nalgebra; `Verif.Lemmas.SvdWitness` shows the third satisfiable.
-/

namespace CamGeom.Spec

/-- `UnitQuaternion::from_rotation_matrix` returns a unit quaternion with the given matrix, for every
proper rotation matrix. -/
def RotationContract (na : Linalg ℝ) : Prop :=
  ∀ M : Mat 3 3 ℝ, IsRotation M →
    UnitQuat (na.fromRotationMatrix M) ∧ (na.fromRotationMatrix M).toRotationMatrix = M

/-- `QR::new(A)` returns an orthogonal `q()` and an upper triangular `r()` with `q() * r() = A`. -/
def QrContract (na : Linalg ℝ) : Prop :=
  ∀ A : Mat 3 3 ℝ,
    (Matrix.of (na.qr A).1).transpose * Matrix.of (na.qr A).1 = 1 ∧
    (∀ i j : Fin 3, j < i → (na.qr A).2 i j = 0) ∧
    Matrix.of (na.qr A).1 * Matrix.of (na.qr A).2 = Matrix.of A

/-- `SVD::try_new(M, true, true, eps, max_niter)`, when it returns, returns a singular value
decomposition: orthogonal `U`, `Vᵀ` and nonnegative `σ` with `U diag(σ) Vᵀ = M`.  Nothing is assumed
about when it returns, nor about the order of `σ`. -/
def SvdContract (trySvd : TrySvd ℝ) : Prop :=
  ∀ (M : Mat 3 3 ℝ) (eps : ℝ) (k : ℕ) (d : SVD ℝ), trySvd M true true eps k = some d →
    ∃ U Vt : Mat 3 3 ℝ, d.u = some U ∧ d.vT = some Vt ∧
      (Matrix.of U).transpose * Matrix.of U = 1 ∧ Matrix.of Vt * (Matrix.of Vt).transpose = 1 ∧
      (∀ i, 0 ≤ d.singularValues i) ∧
      Matrix.of U * Matrix.diagonal d.singularValues * Matrix.of Vt = Matrix.of M

end CamGeom.Spec
