import Verif.Model.Linalg

/-!
# nalgebra's QR decomposition of a 3x3 matrix

`nalgebra::linalg::QR` by Householder reflections, called at `/repo/src/camera.rs:238-240`.  The source of
nalgebra is not in `/repo` and was not available; this follows, from memory, the published algorithm
(`linalg/qr.rs`, `linalg/householder.rs`, `geometry/reflection.rs`).  The properties do not depend on it: they hold for every routine meeting
`QrContract`, and `Verif/Lemmas/Householder.lean` proves that this one does.

Simplification: `signum` of a zero is `1` whatever its sign.
-/

namespace CamGeom
namespace Householder
variable {R : Type} [Scalar R]

/-- Dot product of the rows `i..` of two columns (`/repo/src/camera.rs:238`, inside `QR::new`). -/
def tailDot (i : Fin 3) (a b : V3 R) : R :=
  if i = 0 then a 0 * b 0 + a 1 * b 1 + a 2 * b 2
  else if i = 1 then a 1 * b 1 + a 2 * b 2
  else a 2 * b 2

/-- `signum` (inside `QR::new` and `q()`, `/repo/src/camera.rs:238-239`). -/
def signum (x : R) : R := if Scalar.lt x 0 then -1 else 1

/-- `Reflection::reflect_with_sign` of one column, on the rows `i..`: `-2·sign·(axis·col)·axis + sign·col`
(inside `QR::new` and `q()`, `/repo/src/camera.rs:238-239`). -/
def reflect (i : Fin 3) (axis : V3 R) (sign : R) (col : V3 R) : V3 R :=
  let mTwo := sign * Scalar.lit (-2)
  let factor := (tailDot i axis col - 0) * mTwo
  fun r => if i ≤ r then factor * axis r + sign * col r else col r

/-- `householder::reflection_axis_mut` of the rows `i..` of a column: the new column, the signed norm and
whether a reflection is needed (inside `QR::new`, `/repo/src/camera.rs:238`). -/
def reflectionAxis (i : Fin 3) (x : V3 R) : V3 R × R × Bool :=
  let sqNorm := tailDot i x x
  let norm := Scalar.sqrt sqNorm
  let modulus := Scalar.abs (x i)
  let sign := if Scalar.beq modulus 0 then 1 else x i / modulus
  let signedNorm := sign * norm
  let factor := (sqNorm + modulus * norm) * Scalar.lit 2
  let x := Function.update x i (x i + signedNorm)
  if Scalar.beq factor 0 then (x, signedNorm, false)
  else
    let s := Scalar.sqrt factor
    let x : V3 R := fun r => if i ≤ r then x r / s else x r
    let n := Scalar.sqrt (tailDot i x x)
    let x : V3 R := fun r => if i ≤ r then x r / n else x r
    (x, -signedNorm, true)

/-- `householder::clear_column_unchecked` for column `i`: the changed matrix and the signed norm
(inside `QR::new`, `/repo/src/camera.rs:238`). -/
def clearColumn (i : Fin 3) (m : Mat 3 3 R) : Mat 3 3 R × R :=
  let a := reflectionAxis i fun r => m r i
  if a.2.2 then
    (fun r c => if c = i then a.1 r
      else if i < c then reflect i a.1 (signum a.2.1) (fun r => m r c) r else m r c, a.2.1)
  else (fun r c => if c = i then a.1 r else m r c, a.2.1)

/-- `QR::new`: the packed matrix and the diagonal (`/repo/src/camera.rs:238`). -/
def qrNew (m : Mat 3 3 R) : Mat 3 3 R × V3 R :=
  let s0 := clearColumn 0 m
  let s1 := clearColumn 1 s0.1
  let s2 := clearColumn 2 s1.1
  (s2.1, ![s0.2, s1.2, s2.2])

/-- `QR::r()` (`/repo/src/camera.rs:240`). -/
def r (qr : Mat 3 3 R × V3 R) : Mat 3 3 R :=
  fun i j => if i < j then qr.1 i j else if i = j then Scalar.abs (qr.2 i) else 0

/-- One step of `QR::q()`: reflect the block of rows and columns `i..` (`/repo/src/camera.rs:239`). -/
def qStep (qr : Mat 3 3 R × V3 R) (i : Fin 3) (res : Mat 3 3 R) : Mat 3 3 R :=
  fun a b => if i ≤ b then
      reflect i (fun k => qr.1 k i) (signum (qr.2 i)) (fun k => res k b) a
    else res a b

/-- `QR::q()`: the reflections applied to the identity, last first (`/repo/src/camera.rs:239`). -/
def q (qr : Mat 3 3 R × V3 R) : Mat 3 3 R :=
  qStep qr 0 (qStep qr 1 (qStep qr 2 fun a b => if a = b then 1 else 0))

/-- `QR::new(m)` with `.q()` and `.r()` (`/repo/src/camera.rs:238-240`). -/
def qr (m : Mat 3 3 R) : Mat 3 3 R × Mat 3 3 R := (q (qrNew m), r (qrNew m))

end Householder
end CamGeom
