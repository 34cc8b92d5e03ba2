import Verif.Model.Householder

/-!
# nalgebra's singular value decomposition of a 3x3 matrix

`SVD::try_new(m, true, true, eps, max_niter)`, called at `/repo/src/ray_intersection.rs:178`.  The source of
nalgebra is not in `/repo` and was not available; this follows, from memory, the published algorithm: for 3x3
matrices `linalg/svd3.rs` (`svd_ordered3`: eigenvectors of `mᵀ m`, then a QR decomposition of `m v`), on top of
`linalg/symmetric_eigen.rs` (`do_decompose`: Householder tridiagonalization, then implicit QR steps with
Wilkinson's shift), `linalg/symmetric_tridiagonal.rs`, `linalg/householder.rs` and `linalg/givens.rs`.
Most properties do not depend on it: they hold for every routine meeting `SvdContract`.

Simplifications: `signum` of a zero is `1` whatever its sign; `max` ignores NaN in its left argument only;
with `max_niter = 0`, which means "no limit" in nalgebra, the model gives up at once.  Neither matters for the
call in `/repo`, where `max_niter` is 100.  The columns of a matrix and the entries of the diagonals are
indexed by natural numbers, as in the Rust code; only the indices below 3 (2) are used.
-/

namespace CamGeom
namespace Svd3
open Householder
variable {R : Type} [Scalar R]

/-- `camax()`: the largest absolute value of an entry, in column-major order
(inside `try_symmetric_eigen`, `/repo/src/ray_intersection.rs:178`). -/
def camax (m : Mat 3 3 R) : R :=
  let mx := fun a b : R => if Scalar.lt a b then b else a
  let col := fun (c : Fin 3) (a : R) =>
    mx (mx (mx a (Scalar.abs (m 0 c))) (Scalar.abs (m 1 c))) (Scalar.abs (m 2 c))
  col 2 (col 1 (mx (mx (Scalar.abs (m 0 0)) (Scalar.abs (m 1 0))) (Scalar.abs (m 2 0))))

/-- Entry of the symmetric matrix stored in the lower triangle of `m`
(inside `SymmetricTridiagonal::new`, `/repo/src/ray_intersection.rs:178`). -/
def sym (m : Mat 3 3 R) (r c : Fin 3) : R := if c ≤ r then m r c else m c r

/-- One step of `SymmetricTridiagonal::new`: reflect the rows and columns `k..`, where `k = i + 1`, so that
column `i` is cleared below row `k`; the axis is stored in column `i`.  Returns the changed matrix and the
signed off-diagonal entry (inside `try_symmetric_eigen`, `/repo/src/ray_intersection.rs:178`). -/
def tridiagStep (i k : Fin 3) (m : Mat 3 3 R) : Mat 3 3 R × R :=
  let a := reflectionAxis k fun r => m r i
  let axis := a.1
  if a.2.2 then
    let p : V3 R := fun r => Scalar.lit 2 * tailDot k (sym m r) axis
    let dot := tailDot k axis p
    (fun r c => if c = i then axis r
      else if k ≤ c ∧ c ≤ r then
        dot * Scalar.lit 2 * axis r * axis c + (-1 * axis r * p c + (-1 * p r * axis c + m r c))
      else m r c, a.2.1)
  else (fun r c => if c = i then axis r else m r c, a.2.1)

/-- `GivensRotation { c, s }` (inside `try_symmetric_eigen`, `/repo/src/ray_intersection.rs:178`). -/
structure Givens (R : Type) where
  c : R
  s : R

/-- `to_exp()` of a real number: modulus and sign (inside `GivensRotation::try_new` and `cancel_y`,
`/repo/src/ray_intersection.rs:178`). -/
def toExp (x : R) : R × R := if Scalar.le 0 x then (x, 1) else (-x, -1)

/-- `GivensRotation::cancel_y(&[x, y])`: the rotation and the signed length
(inside `try_symmetric_eigen`, `/repo/src/ray_intersection.rs:178`). -/
def cancelY (x y : R) : Option (Givens R × R) :=
  if Scalar.beq y 0 then none
  else
    let e := toExp x
    let denom := Scalar.sqrt (e.1 * e.1 + y * y)
    some (⟨e.1 / denom, -y / (e.2 * denom)⟩, e.2 * denom)

/-- `GivensRotation::try_new(x, y, eps)` (inside `try_symmetric_eigen`,
`/repo/src/ray_intersection.rs:178`). -/
def Givens.tryNew (x y eps : R) : Option (Givens R) :=
  let e := toExp x
  let denom := Scalar.sqrt (e.1 * e.1 + y * y)
  if Scalar.lt eps denom then some ⟨e.1 / denom, y / (e.2 * denom)⟩ else none

/-- `rot.inverse()` (inside `try_symmetric_eigen`, `/repo/src/ray_intersection.rs:178`). -/
def Givens.inverse (g : Givens R) : Givens R := ⟨g.c, -g.s⟩

/-- `rot.rotate_rows(&mut q.fixed_columns_mut::<2>(i))`
(inside `try_symmetric_eigen`, `/repo/src/ray_intersection.rs:178`). -/
def Givens.rotateRows (g : Givens R) (i : ℕ) (q : Fin 3 → ℕ → R) : Fin 3 → ℕ → R := fun r c =>
  if c = i then q r i * g.c + q r (i + 1) * g.s
  else if c = i + 1 then -g.s * q r i + q r (i + 1) * g.c
  else q r c

/-- `wilkinson_shift(tmm, tnn, tmn)` (inside `try_symmetric_eigen`,
`/repo/src/ray_intersection.rs:178`). -/
def wilkinsonShift (tmm tnn tmn : R) : R :=
  let sq := tmn * tmn
  if Scalar.beq sq 0 then tnn
  else
    let d := (tmm - tnn) * Scalar.lit (1 / 2)
    tnn - sq / (d + signum d * Scalar.sqrt (d * d + sq))

/-- The variables `q_mat`, `diag` and `off_diag` of `do_decompose`
(inside `try_symmetric_eigen`, `/repo/src/ray_intersection.rs:178`). -/
structure State (R : Type) where
  q : Fin 3 → ℕ → R
  diag : ℕ → R
  off : ℕ → R

/-- The test whether the entry `off_diag[m]` is negligible
(inside `try_symmetric_eigen`, `/repo/src/ray_intersection.rs:178`). -/
def small (eps : R) (t : State R) (m : ℕ) : Bool :=
  Scalar.le (Scalar.abs (t.off m)) (eps * (Scalar.abs (t.diag (m + 1)) + Scalar.abs (t.diag m)))

/-- The first loop of `delimit_subproblem`: the last index of the subproblem
(inside `try_symmetric_eigen`, `/repo/src/ray_intersection.rs:178`). -/
def delimitEnd (eps : R) (t : State R) : ℕ → ℕ
  | 0 => 0
  | m + 1 =>
    if Scalar.lt (eps * (Scalar.abs (t.diag (m + 1)) + Scalar.abs (t.diag m))) (Scalar.abs (t.off m))
    then m + 1 else delimitEnd eps t m

/-- The second loop of `delimit_subproblem`: the first index of the subproblem, with the entry before it set
to zero (inside `try_symmetric_eigen`, `/repo/src/ray_intersection.rs:178`). -/
def delimitStart (eps : R) (t : State R) : ℕ → State R × ℕ
  | 0 => (t, 0)
  | m + 1 =>
    if Scalar.beq (t.off m) 0 || small eps t m then
      ({ t with off := Function.update t.off m 0 }, m + 1)
    else delimitStart eps t m

/-- `delimit_subproblem(diag, off_diag, end, eps)`: the changed variables, `start` and `end`
(inside `try_symmetric_eigen`, `/repo/src/ray_intersection.rs:178`). -/
def delimit (eps : R) (t : State R) (e : ℕ) : State R × ℕ × ℕ :=
  let n := delimitEnd eps t e
  if n = 0 then (t, 0, 0)
  else
    let s := delimitStart eps t (n - 1)
    (s.1, s.2, n)

/-- The loop `for i in start..n` of `do_decompose`: a QR step by rotations of the columns `i` and `i + 1`,
for `cnt` more values of `i`, with the current `vec = (x, y)`
(inside `try_symmetric_eigen`, `/repo/src/ray_intersection.rs:178`). -/
def sweep (start n : ℕ) : ℕ → ℕ → R → R → State R → State R
  | 0, _, _, _, t => t
  | cnt + 1, i, x, y, t =>
    match cancelY x y with
    | none => t
    | some (rot, norm) =>
      let off := if start < i then Function.update t.off (i - 1) norm else t.off
      let mii := t.diag i
      let mjj := t.diag (i + 1)
      let mij := off i
      let cc := rot.c * rot.c
      let ss := rot.s * rot.s
      let cs := rot.c * rot.s
      let b := cs * Scalar.lit 2 * mij
      let diag := Function.update t.diag i ((cc * mii + ss * mjj) - b)
      let diag := Function.update diag (i + 1) ((ss * mii + cc * mjj) + b)
      let off := Function.update off i (cs * (mii - mjj) + mij * (cc - ss))
      let q := rot.inverse.rotateRows i t.q
      if i = n - 1 then sweep start n cnt (i + 1) x y ⟨q, diag, off⟩
      else
        sweep start n cnt (i + 1) (off i) (-rot.s * off (i + 1))
          ⟨q, diag, Function.update off (i + 1) (off (i + 1) * rot.c)⟩

/-- The eigenvalues of `[[a, b], [b, c]]`, larger one first (`Matrix2::eigenvalues`; inside
`try_symmetric_eigen`, `/repo/src/ray_intersection.rs:178`). -/
def eigenvalues2 (a b c : R) : R × R :=
  let val := (a - c) * Scalar.lit (1 / 2)
  let discr := Scalar.sqrt (b * b + val * val)
  let halfTra := (a + c) * Scalar.lit (1 / 2)
  (halfTra + discr, halfTra - discr)

/-- The body of the loop of `do_decompose` before the subproblem is delimited again: the changed variables
and `end` (inside `try_symmetric_eigen`, `/repo/src/ray_intersection.rs:178`). -/
def body (eps : R) (t : State R) (start e : ℕ) : State R × ℕ :=
  if e - start + 1 > 2 then
    let m := e - 1
    let t := sweep start e (e - start) start
      (t.diag start - wilkinsonShift (t.diag m) (t.diag e) (t.off m)) (t.off start) t
    if Scalar.le (Scalar.abs (t.off m)) (eps * (Scalar.abs (t.diag m) + Scalar.abs (t.diag e))) then (t, e - 1)
    else (t, e)
  else
    let ev := eigenvalues2 (t.diag start) (t.off start) (t.diag (start + 1))
    let q := match Givens.tryNew (ev.1 - t.diag (start + 1)) (t.off start) eps with
      | some rot => rot.rotateRows start t.q
      | none => t.q
    (⟨q, Function.update (Function.update t.diag start ev.1) (start + 1) ev.2, t.off⟩, e - 1)

/-- The loop of `do_decompose`, which gives up when the number of iterations reaches the limit `max_niter`
(inside `try_symmetric_eigen`, `/repo/src/ray_intersection.rs:178`). -/
def loop (eps : R) : ℕ → State R × ℕ × ℕ → Option (State R)
  | fuel, (t, start, e) =>
    if e = start then some t
    else match fuel with
      | 0 => none
      | k + 1 =>
        let b := body eps t start e
        let d := delimit eps b.1 b.2
        if k = 0 then none else loop eps k d

/-- `SymmetricTridiagonal::new(m).unpack()` (inside `try_symmetric_eigen`,
`/repo/src/ray_intersection.rs:178`). -/
def tridiag (m : Mat 3 3 R) : State R :=
  let s0 := tridiagStep 0 1 m
  let s1 := tridiagStep 1 2 s0.1
  let tri := s1.1
  let q1 : Mat 3 3 R := fun a b => if (1 : Fin 3) ≤ b then
      reflect 2 (fun k => tri k 1) (signum s1.2) (fun k => if k = b then 1 else 0) a
    else if a = b then 1 else 0
  let q0 : Mat 3 3 R := fun a b => reflect 1 (fun k => tri k 0) (signum s0.2) (fun k => q1 k b) a
  ⟨fun r c => if h : c < 3 then q0 r ⟨c, h⟩ else 0,
    fun i => if h : i < 3 then tri ⟨i, h⟩ ⟨i, h⟩ else 0,
    fun i => if i = 0 then Scalar.abs s0.2 else Scalar.abs s1.2⟩

/-- `m.try_symmetric_eigen(eps, max_niter)?.eigenvectors` (inside `SVD::try_new`,
`/repo/src/ray_intersection.rs:178`). -/
def eigenvectors (m : Mat 3 3 R) (eps : R) (maxNiter : ℕ) : Option (Mat 3 3 R) :=
  let amax := camax m
  let m : Mat 3 3 R := if Scalar.beq amax 0 then m else fun r c => m r c / amax
  (loop eps maxNiter (delimit eps (tridiag m) 2)).map fun t r c => t.q r c

/-- `swap_columns(i, j)` followed by `column_mut(j).neg_mut()` (inside `svd_ordered3`,
`/repo/src/ray_intersection.rs:178`). -/
def swapNeg (i j : Fin 3) (m : Mat 3 3 R) : Mat 3 3 R :=
  fun r c => if c = i then m r j else if c = j then -m r i else m r c

/-- `column(c).norm_squared()` (inside `svd_ordered3`, `/repo/src/ray_intersection.rs:178`). -/
def colSq (m : Mat 3 3 R) (c : Fin 3) : R := tailDot 0 (fun r => m r c) fun r => m r c

/-- Swap the columns `i` and `j` of `b` and of `v` if column `i` of `b` is shorter (inside `svd_ordered3`,
`/repo/src/ray_intersection.rs:178`). -/
def order (i j : Fin 3) (bv : Mat 3 3 R × Mat 3 3 R) : Mat 3 3 R × Mat 3 3 R :=
  if Scalar.lt (colSq bv.1 i) (colSq bv.1 j) then (swapNeg i j bv.1, swapNeg i j bv.2) else bv

/-- `svd_ordered3` (`/repo/src/ray_intersection.rs:178`).  The squared column norms, which the Rust code
computes once and swaps along with the columns, are recomputed. -/
def svd : TrySvd R := fun m computeU computeV eps maxNiter => do
  let s : Mat 3 3 R := fun i j => tailDot 0 (fun k => m k i) fun k => m k j
  let v ← eigenvectors s eps maxNiter
  let b := Mat.mul3 m v
  let bv := order 1 2 (order 0 2 (order 0 1 (b, v)))
  let qr := Householder.qrNew bv.1
  some {
    u := if computeU then some (Householder.q qr) else none
    vT := if computeV then some (Mat.transpose' bv.2) else none
    singularValues := fun i => Scalar.abs (qr.2 i) }

end Svd3
end CamGeom
