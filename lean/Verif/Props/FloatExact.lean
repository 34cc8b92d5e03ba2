import Verif.Lemmas.FloatLaws
import Verif.Lemmas.Loops
import Verif.Model.Linearize
import Verif.Model.RayIntersection

/-!
# C94: what is exact in floating point

Symmetries that hold bit for bit in `f32` and `f64`, for every input including infinities and NaN: reversing the
directions of rays, and describing a rotation by the opposite quaternion.  A camera in the origin of the world, looking
along its axes with unit focal length, does not round at all.
-/

namespace CamGeom
open ExtrinsicParameters

namespace Flt

variable {f : Format}

/-- The same number, infinity or NaN; the two zeros count as the same. -/
def Same : Flt f → Flt f → Prop
  | num s x h, num t y k => val (num s x h) = val (num t y k)
  | inf s, inf t => s = t
  | nan, nan => True
  | _, _ => False

theorem Same.refl (a : Flt f) : Same a a := by
  cases a <;> simp [Same]

theorem Same.symm {a b : Flt f} (h : Same a b) : Same b a := by
  cases a <;> cases b <;> simp_all [Same]

theorem Same.trans {a b c : Flt f} (h : Same a b) (k : Same b c) : Same a c := by
  cases a <;> cases b <;> cases c <;> simp_all [Same]

/-- `Same` is `==`, extended to NaN. -/
theorem same_iff {a b : Flt f} : Same a b ↔ beq a b = true ∨ (a = nan ∧ b = nan) := by
  cases a <;> cases b <;> simp [Same, beq]

theorem same_finite {a b : Flt f} (h : Same a b) : a.isFinite ↔ b.isFinite := by
  cases a <;> cases b <;> simp_all [Same, isFinite]

theorem same_val {a b : Flt f} (h : Same a b) : a.val = b.val := by
  cases a <;> cases b <;> simp_all [Same]

theorem same_of_val {a b : Flt f} (ha : a.isFinite) (hb : b.isFinite) (h : a.val = b.val) : Same a b := by
  cases a <;> cases b <;> simp_all [Same, isFinite]

/-- Unless the number is zero, `Same` means the same bit pattern. -/
theorem same_eq {a b : Flt f} (h : Same a b) (h0 : a.isFinite → a.val ≠ 0) : a = b := by
  by_cases ha : a.isFinite
  · exact ext_val ha ((same_finite h).1 ha) (same_val h) (h0 ha)
  · cases a <;> cases b <;> simp_all [Same, isFinite]

theorem same_ofReal (z z' : Bool) (x : ℝ) : Same (ofReal f z x) (ofReal f z' x) := by
  by_cases hx : x = 0
  · subst hx
    rw [ofReal_zero, ofReal_zero]
    simp [Same, val]
  · simp only [ofReal, hx, if_false]
    exact Same.refl _

open Classical in
theorem ofReal_neg (z : Bool) (x : ℝ) : ofReal f (!z) (-x) = neg (ofReal f z x) := by
  have s : (if -x = 0 then !z else decide (-x < 0)) = !(if x = 0 then z else decide (x < 0)) := by
    by_cases hx : x = 0
    · simp [hx]
    · rcases lt_or_gt_of_ne hx with h | h
      · simp [hx, h, h.le]
      · simp [hx, h, h.le]
  have m : ∀ y : ℝ, y = |x| → ∀ t : Bool, (if h : f.Mag (f.rnd y) then num (!t) (f.rnd y) h else inf (!t)) =
      neg (if h : f.Mag (f.rnd |x|) then num t (f.rnd |x|) h else inf t) := by
    rintro y rfl t
    by_cases h : f.Mag (f.rnd |x|)
    · simp only [h, dif_pos, neg]
    · simp only [h, dif_neg, not_false_eq_true, neg]
  simp only [ofReal]
  rw [s]
  exact m _ (abs_neg x) _

theorem neg_neg (a : Flt f) : neg (neg a) = a := by
  cases a <;> simp [neg]

theorem neg_mul (a b : Flt f) : mul (neg a) b = neg (mul a b) := by
  cases a with
  | nan => cases b <;> rfl
  | inf s => cases b with
    | nan => rfl
    | inf t => cases s <;> cases t <;> rfl
    | num t y k => by_cases hy : y = 0 <;> cases s <;> cases t <;> simp [mul, neg, hy]
  | num s x h => cases b with
    | nan => rfl
    | inf t => by_cases hx : x = 0 <;> cases s <;> cases t <;> simp [mul, neg, hx]
    | num t y k =>
      have e : val (num (!s) x h) = -val (num s x h) := neg_val (num s x h)
      show ofReal f (xor (!s) t) (val (num (!s) x h) * val (num t y k)) = neg (ofReal f (xor s t) _)
      rw [e, _root_.neg_mul, ← ofReal_neg, Bool.not_xor]

theorem mul_comm (a b : Flt f) : mul a b = mul b a := by
  cases a <;> cases b <;> simp [mul, Bool.xor_comm, _root_.mul_comm]

theorem mul_neg (a b : Flt f) : mul a (neg b) = neg (mul a b) := by
  rw [mul_comm, neg_mul, mul_comm]

theorem neg_mul_neg (a b : Flt f) : mul (neg a) (neg b) = mul a b := by
  rw [neg_mul, mul_neg, neg_neg]

theorem neg_div (a b : Flt f) : div (neg a) b = neg (div a b) := by
  cases a with
  | nan => cases b <;> rfl
  | inf s => cases b with
    | nan => rfl
    | inf t => rfl
    | num t y k => cases s <;> cases t <;> rfl
  | num s x h => cases b with
    | nan => rfl
    | inf t =>
      show ofReal f (xor (!s) t) 0 = neg (ofReal f (xor s t) 0)
      rw [← ofReal_neg, neg_zero, Bool.not_xor]
    | num t y k =>
      have e : val (num (!s) x h) = -val (num s x h) := neg_val (num s x h)
      by_cases hy : y = 0
      · by_cases hx : x = 0 <;> cases s <;> cases t <;> simp [div, neg, hy, hx]
      · simp only [div, neg, hy, if_false]
        rw [e, _root_.neg_div, Bool.not_xor]
        exact ofReal_neg (f := f) (xor s t) (val (num s x h) / val (num t y k))

/-! `Same` is preserved by the operations. -/

theorem Same.neg {a b : Flt f} (h : Same a b) : Same a.neg b.neg := by
  cases a <;> cases b <;> simp_all [Same, Flt.neg]
  have := h
  rename_i s x hx t y hy
  have e1 := neg_val (num s x hx)
  have e2 := neg_val (num t y hy)
  simp only [Flt.neg] at e1 e2
  rw [e1, e2, h]

theorem Same.add {a b c d : Flt f} (h : Same a b) (k : Same c d) : Same (a.add c) (b.add d) := by
  cases a <;> cases b <;> simp only [Same] at h <;> cases c <;> cases d <;> simp only [Same] at k <;>
    first
    | contradiction
    | (simp only [Flt.add]; subst_vars; exact Same.refl _)
    | (simp only [Flt.add, h, k]; exact same_ofReal _ _ _)

theorem num_zero_iff {s t : Bool} {x y : ℝ} {hx : f.Mag x} {hy : f.Mag y}
    (h : val (num s x hx) = val (num t y hy)) : x = 0 ↔ y = 0 := by
  rw [← val_eq_zero (s := s) (h := hx), h, val_eq_zero]

theorem num_sign {s t : Bool} {x y : ℝ} {hx : f.Mag x} {hy : f.Mag y}
    (h : val (num s x hx) = val (num t y hy)) (h0 : x ≠ 0) : s = t := by
  have := same_eq (a := num s x hx) (b := num t y hy) h fun _ => by rw [Ne, val_eq_zero]; exact h0
  injection this

theorem Same.mul {a b c d : Flt f} (h : Same a b) (k : Same c d) : Same (a.mul c) (b.mul d) := by
  cases a <;> cases b <;> simp only [Same] at h <;> cases c <;> cases d <;> simp only [Same] at k <;>
    first
    | contradiction
    | exact trivial
    | skip
  · simp only [Flt.mul, h, k]
    exact same_ofReal _ _ _
  · rename_i s x hx t y hy u v
    by_cases h0 : x = 0
    · simp only [Flt.mul, h0, (num_zero_iff h).1 h0, if_true]
      exact Same.refl _
    · simp only [Flt.mul, h0, mt (num_zero_iff h).2 h0, if_false]
      rw [num_sign h h0, k]
      exact Same.refl _
  · rename_i u v s x hx t y hy
    by_cases h0 : x = 0
    · simp only [Flt.mul, h0, (num_zero_iff k).1 h0, if_true]
      exact Same.refl _
    · simp only [Flt.mul, h0, mt (num_zero_iff k).2 h0, if_false]
      rw [num_sign k h0, h]
      exact Same.refl _
  · rw [h, k]
    exact Same.refl _

/-- Quotients are the same, or neither is finite (the denominator is zero). -/
theorem Same.div {a b c d : Flt f} (h : Same a b) (k : Same c d) :
    Same (a.div c) (b.div d) ∨ (¬ (a.div c).isFinite ∧ ¬ (b.div d).isFinite) := by
  cases a <;> cases b <;> simp only [Same] at h <;> cases c <;> cases d <;> simp only [Same] at k <;>
    first
    | contradiction
    | exact Or.inl trivial
    | skip
  · rename_i s x hx t y hy s' x' hx' t' y' hy'
    by_cases h0 : x' = 0
    · refine Or.inr ?_
      by_cases h1 : x = 0
      · simp [Flt.div, h0, (num_zero_iff k).1 h0, h1, (num_zero_iff h).1 h1, isFinite]
      · simp [Flt.div, h0, (num_zero_iff k).1 h0, h1, mt (num_zero_iff h).2 h1, isFinite]
    · refine Or.inl ?_
      simp only [Flt.div, h0, mt (num_zero_iff k).2 h0, if_false, h, k]
      exact same_ofReal _ _ _
  · exact Or.inl (same_ofReal _ _ _)
  · refine Or.inr ?_
    simp [Flt.div, isFinite]

theorem neg_add_neg (a b : Flt f) : Same (add (neg a) (neg b)) (neg (add a b)) := by
  cases a with
  | nan => cases b <;> exact trivial
  | inf s => cases b with
    | nan => exact trivial
    | inf t => cases s <;> cases t <;> simp [add, neg, Same]
    | num t y k => cases s <;> simp [add, neg, Same]
  | num s x h => cases b with
    | nan => exact trivial
    | inf t => cases t <;> simp [add, neg, Same]
    | num t y k =>
      have e1 : val (num (!s) x h) = -val (num s x h) := neg_val (num s x h)
      have e2 : val (num (!t) y k) = -val (num t y k) := neg_val (num t y k)
      show Same (ofReal f _ (val (num (!s) x h) + val (num (!t) y k))) (neg (ofReal f (s && t) _))
      rw [e1, e2, ← neg_add, ← ofReal_neg]
      exact same_ofReal _ _ _

theorem powi_two_neg (a : Flt f) : powi (neg a) 2 = powi a 2 := by
  simp [powi, powLoop, neg_mul_neg]

end Flt

/-! ### Rays in the other direction -/

section Rays

variable {R F : Type} [Scalar R] [Scalar F] [F64Conv R F]

/-- What the intersection uses of a ray. -/
def rayKey {Coords : Type} (r : Ray Coords R) : (Fin 3 → Fin 3 → R) × V3 R :=
  let d := V3.normalize r.direction
  (fun a b => if a = b then Scalar.powi (d a) 2 else if a < b then d a * d b else d b * d a, r.center)

/-- `sumAsF64` for a list. -/
def sumList (l : List R) : Outcome F :=
  match l.mapM (F64Conv.toF64 (R := R) (F := F)) with
  | some l => .ok (l.foldl (· + ·) 0)
  | none => .panic

omit [Scalar R] in
theorem sumAsF64_map {α : Type} (l : List α) (g : α → R) :
    (sumAsF64 (fun i => g (l.get i)) : Outcome F) = sumList (l.map g) := by
  have : List.ofFn (fun i => g (l.get i)) = l.map g := by
    rw [← List.ofFn_get (l.map g)]
    refine List.ext_get (by simp) fun n h1 h2 => by simp
  rw [sumAsF64, this]
  rfl

/-- The sums and the rest of the computation. -/
theorem best_as_sums {Coords : Type} (trySvd : TrySvd F) (rays : List (Ray Coords R)) (h : ¬ rays.length < 2) :
    bestIntersectionOfRays trySvd rays = (do
      let g : Fin 3 → Fin 3 → (Fin 3 → Fin 3 → R) × V3 R → R := fun a b k =>
        if a = b then k.1 a b + Scalar.lit (-1) else k.1 a b
      let s : Fin 3 → Fin 3 → Outcome F := fun a b => sumList ((rays.map rayKey).map (g a b))
      let t : Fin 3 → Outcome F := fun a =>
        sumList ((rays.map rayKey).map fun k => k.2 0 * g 0 a k + k.2 1 * g 1 a k + k.2 2 * g 2 a k)
      let SXX ← s 0 0
      let SYY ← s 1 1
      let SZZ ← s 2 2
      let SXY ← s 0 1
      let SXZ ← s 0 2
      let SYZ ← s 1 2
      let CX ← t 0
      let CY ← t 1
      let CZ ← t 2
      let sF64Pinv ← myPinv trySvd ![![SXX, SXY, SXZ], ![SXY, SYY, SYZ], ![SXZ, SYZ, SZZ]]
      let sPinv : Mat 3 3 R := despecialize sF64Pinv
      let r : V3 R := Mat.mulVec3 sPinv ![F64Conv.ofF64 CX, F64Conv.ofF64 CY, F64Conv.ofF64 CZ]
      pure { data := forRange 3 (Mat.zeros 1 3) fun j result => result.set 0 j (r j) }) := by
  rw [bestIntersectionOfRays, if_neg h]
  simp only [lineDirs_eq, linePoints_eq, zipLoop_eq, List.map_map, ← sumAsF64_map]
  simp [rayKey]

/-- The intersection depends on the rays only through the keys. -/
theorem best_of_keys {Coords : Type} (trySvd : TrySvd F) (rays rays' : List (Ray Coords R))
    (h : rays.map rayKey = rays'.map rayKey) :
    bestIntersectionOfRays trySvd rays = bestIntersectionOfRays trySvd rays' := by
  have hl : rays.length = rays'.length := by
    have := congrArg List.length h
    simpa using this
  by_cases h2 : rays.length < 2
  · rw [bestIntersectionOfRays, if_pos h2, bestIntersectionOfRays, if_pos (hl ▸ h2)]
  · rw [best_as_sums trySvd rays h2, best_as_sums trySvd rays' (hl ▸ h2), h]

end Rays

section Float

variable {f : Format} {lib : Libm f} {lib' : Libm Format.b64}

theorem normalize_neg (d : V3 (RustFloat f lib)) : V3.normalize (V3.neg d) = V3.neg (V3.normalize d) := by
  have hn : V3.norm (V3.neg d) = V3.norm d := by
    have e : ∀ a, V3.neg d a * V3.neg d a = d a * d a := fun a => Flt.neg_mul_neg (f := f) (d a) (d a)
    simp only [V3.norm, V3.normSq, e]
  funext a
  simp only [V3.normalize, hn]
  exact Flt.neg_div (f := f) (d a) (V3.norm (R := RustFloat f lib) d)

theorem rayKey_neg {Coords : Type} (c d : V3 (RustFloat f lib)) :
    rayKey (⟨c, V3.neg d⟩ : Ray Coords (RustFloat f lib)) = rayKey (⟨c, d⟩ : Ray Coords (RustFloat f lib)) := by
  simp only [rayKey, normalize_neg]
  refine Prod.ext ?_ rfl
  funext a b
  have e : ∀ a b, V3.neg (V3.normalize d) a * V3.neg (V3.normalize d) b = V3.normalize d a * V3.normalize d b :=
    fun a b => Flt.neg_mul_neg (f := f) _ _
  have p : ∀ a, Scalar.powi (V3.neg (V3.normalize d) a) 2 = Scalar.powi (V3.normalize d a) 2 :=
    fun a => Flt.powi_two_neg (f := f) _
  simp only [e, p]

/-- **C94**: reversing the directions of any of the rays does not change a bit of the result, whatever the rays are. -/
theorem c94_reversed_rays {Coords F : Type} [Scalar F] [F64Conv (RustFloat f lib) F] (trySvd : TrySvd F)
    (rays rays' : List (Ray Coords (RustFloat f lib)))
    (h : List.Forall₂ (fun r r' => r'.center = r.center ∧
      (r'.direction = r.direction ∨ ∀ a, r'.direction a = -r.direction a)) rays rays') :
    bestIntersectionOfRays trySvd rays' = bestIntersectionOfRays trySvd rays := by
  refine (best_of_keys trySvd rays rays' ?_).symm
  induction h with
  | nil => rfl
  | @cons r r' l l' hr _ ih =>
    obtain ⟨hc, hd⟩ := hr
    rw [List.map_cons, List.map_cons, ih]
    congr 1
    obtain ⟨c, d⟩ := r
    obtain ⟨c', d'⟩ := r'
    simp only at hc hd
    subst hc
    rcases hd with hd | hd
    · rw [hd]
    · have : d' = V3.neg d := funext hd
      rw [this, rayKey_neg]

/-! ### The opposite quaternion -/

/-- `-q`, which describes the same rotation. -/
def Quat.opposite {R : Type} [Neg R] (q : Quat R) : Quat R := ⟨-q.w, -q.i, -q.j, -q.k⟩

theorem opposite_matrix (q : Quat (RustFloat f lib)) : q.opposite.toRotationMatrix = q.toRotationMatrix := by
  have e : ∀ a b : RustFloat f lib, -a * -b = a * b := fun a b => Flt.neg_mul_neg (f := f) a b
  simp only [Quat.toRotationMatrix, Quat.opposite, e]

/-- **C94**: with the opposite quaternion, the rotation matrix, the translation, the 3x4 extrinsic matrix, the camera
matrix and the Jacobian are the same, bit for bit. -/
theorem c94_opposite_matrices (q : Quat (RustFloat f lib)) (c : V3 (RustFloat f lib))
    (intr : IntrinsicParametersPerspective (RustFloat f lib)) :
    (fromRotationAndCamcenter q.opposite c).rotation = (fromRotationAndCamcenter q c).rotation ∧
    (fromRotationAndCamcenter q.opposite c).translation = (fromRotationAndCamcenter q c).translation ∧
    (fromRotationAndCamcenter q.opposite c).matrix = (fromRotationAndCamcenter q c).matrix ∧
    (Camera.mk intr (fromRotationAndCamcenter q.opposite c)).asCameraMatrix =
      (Camera.mk intr (fromRotationAndCamcenter q c)).asCameraMatrix ∧
    ∀ pt, (JacobianPerspectiveCache.new (Camera.mk intr (fromRotationAndCamcenter q.opposite c))).linearizeAt pt =
      (JacobianPerspectiveCache.new (Camera.mk intr (fromRotationAndCamcenter q c))).linearizeAt pt := by
  have hq : (fromRotationAndCamcenter q.opposite c).cache.qt = (fromRotationAndCamcenter q c).cache.qt := by
    simp only [fromRotationAndCamcenter, opposite_matrix]
  refine ⟨?_, ?_, ?_, ?_, fun pt => ?_⟩
  · show q.opposite.toRotationMatrix = _
    exact opposite_matrix q
  · simp only [ExtrinsicParameters.translation, fromRotationAndCamcenter, opposite_matrix]
  · exact hq
  · simp only [Camera.asCameraMatrix, hq]
  · simp only [JacobianPerspectiveCache.new, ExtrinsicParameters.matrix, hq]
    rfl

/-- Equal up to the sign of zero, in every coordinate. -/
def SameV {n : ℕ} (v w : Fin n → RustFloat f lib) : Prop := ∀ a, Flt.Same (f := f) (v a) (w a)

theorem same_add {a b c d : RustFloat f lib} (h : Flt.Same (f := f) a b) (k : Flt.Same (f := f) c d) :
    Flt.Same (f := f) (a + c) (b + d) := Flt.Same.add h k

theorem same_mul {a b c d : RustFloat f lib} (h : Flt.Same (f := f) a b) (k : Flt.Same (f := f) c d) :
    Flt.Same (f := f) (a * c) (b * d) := Flt.Same.mul h k

theorem same_neg {a b : RustFloat f lib} (h : Flt.Same (f := f) a b) : Flt.Same (f := f) (-a) (-b) := Flt.Same.neg h

theorem same_sub {a b c d : RustFloat f lib} (h : Flt.Same (f := f) a b) (k : Flt.Same (f := f) c d) :
    Flt.Same (f := f) (a - c) (b - d) := Flt.Same.add h (Flt.Same.neg k)

theorem same_cross {a b c d : V3 (RustFloat f lib)} (h : SameV a b) (k : SameV c d) :
    SameV (V3.cross a c) (V3.cross b d) := by
  intro i
  fin_cases i
  · exact same_sub (same_mul (h 1) (k 2)) (same_mul (h 2) (k 1))
  · exact same_sub (same_mul (h 2) (k 0)) (same_mul (h 0) (k 2))
  · exact same_sub (same_mul (h 0) (k 1)) (same_mul (h 1) (k 0))

theorem neg_sub_neg' (a b : RustFloat f lib) : Flt.Same (f := f) (-a - -b) (-(a - b)) :=
  Flt.neg_add_neg (f := f) a (Flt.neg b)

theorem cross_neg (a b : V3 (RustFloat f lib)) : SameV (V3.cross (V3.neg a) b) (V3.neg (V3.cross a b)) := by
  have e : ∀ x y : RustFloat f lib, -x * y = -(x * y) := fun x y => Flt.neg_mul (f := f) x y
  intro i
  fin_cases i
  · show Flt.Same (f := f) (-(a 1) * b 2 - -(a 2) * b 1) (-(a 1 * b 2 - a 2 * b 1))
    rw [e, e]
    exact neg_sub_neg' _ _
  · show Flt.Same (f := f) (-(a 2) * b 0 - -(a 0) * b 2) (-(a 2 * b 0 - a 0 * b 2))
    rw [e, e]
    exact neg_sub_neg' _ _
  · show Flt.Same (f := f) (-(a 0) * b 1 - -(a 1) * b 0) (-(a 0 * b 1 - a 1 * b 0))
    rw [e, e]
    exact neg_sub_neg' _ _

theorem cross_neg_right (a b : V3 (RustFloat f lib)) : SameV (V3.cross a (V3.neg b)) (V3.neg (V3.cross a b)) := by
  have e : ∀ x y : RustFloat f lib, x * -y = -(x * y) := fun x y => Flt.mul_neg (f := f) x y
  intro i
  fin_cases i
  · show Flt.Same (f := f) (a 1 * -(b 2) - a 2 * -(b 1)) (-(a 1 * b 2 - a 2 * b 1))
    rw [e, e]
    exact neg_sub_neg' _ _
  · show Flt.Same (f := f) (a 2 * -(b 0) - a 0 * -(b 2)) (-(a 2 * b 0 - a 0 * b 2))
    rw [e, e]
    exact neg_sub_neg' _ _
  · show Flt.Same (f := f) (a 0 * -(b 1) - a 1 * -(b 0)) (-(a 0 * b 1 - a 1 * b 0))
    rw [e, e]
    exact neg_sub_neg' _ _

theorem same_rotate (q : Quat (RustFloat f lib)) {v w : V3 (RustFloat f lib)} (h : SameV v w) :
    SameV (q.rotate v) (q.rotate w) := by
  have t : SameV (V3.scale (V3.cross q.vector v) (Scalar.lit 2)) (V3.scale (V3.cross q.vector w) (Scalar.lit 2)) :=
    fun a => same_mul (same_cross (fun _ => Flt.Same.refl _) h a) (Flt.Same.refl _)
  intro a
  exact same_add (same_add (same_mul (t a) (Flt.Same.refl _)) (same_cross (fun _ => Flt.Same.refl _) t a)) (h a)

theorem opposite_rotate (q : Quat (RustFloat f lib)) (v : V3 (RustFloat f lib)) :
    SameV (q.opposite.rotate v) (q.rotate v) := by
  have hv : q.opposite.vector = V3.neg q.vector := by
    funext a
    fin_cases a <;> rfl
  have t : SameV (V3.scale (V3.cross q.opposite.vector v) (Scalar.lit 2))
      (V3.neg (V3.scale (V3.cross q.vector v) (Scalar.lit 2))) := by
    intro a
    rw [hv]
    have h1 := same_mul (cross_neg q.vector v a) (Flt.Same.refl (f := f) (Scalar.lit 2 : RustFloat f lib))
    have e : V3.neg (V3.cross q.vector v) a * (Scalar.lit 2 : RustFloat f lib) =
        V3.neg (V3.scale (V3.cross q.vector v) (Scalar.lit 2)) a := Flt.neg_mul (f := f) _ _
    rw [e] at h1
    exact h1
  intro a
  refine same_add (same_add ?_ ?_) (Flt.Same.refl _)
  · have h1 := same_mul (t a) (Flt.Same.refl (f := f) (-q.w : RustFloat f lib))
    have e : V3.neg (V3.scale (V3.cross q.vector v) (Scalar.lit 2)) a * -q.w =
        V3.scale (V3.cross q.vector v) (Scalar.lit 2) a * q.w := Flt.neg_mul_neg (f := f) _ _
    rw [e] at h1
    exact h1
  · rw [hv] at t ⊢
    refine (same_cross (fun _ => Flt.Same.refl _) t a).trans ((cross_neg _ _ a).trans ?_)
    have h1 := same_neg (cross_neg_right q.vector (V3.scale (V3.cross q.vector v) (Scalar.lit 2)) a)
    have e : -V3.neg (V3.cross q.vector (V3.scale (V3.cross q.vector v) (Scalar.lit 2))) a =
        V3.cross q.vector (V3.scale (V3.cross q.vector v) (Scalar.lit 2)) a := Flt.neg_neg (f := f) _
    rw [e] at h1
    exact h1

theorem opposite_inverse (q : Quat (RustFloat f lib)) : q.opposite.inverse = q.inverse.opposite := rfl

theorem opposite_pose (q : Quat (RustFloat f lib)) (c : V3 (RustFloat f lib)) (v : V3 (RustFloat f lib)) :
    SameV ((fromRotationAndCamcenter q.opposite c).cache.pose.transformPoint v)
      ((fromRotationAndCamcenter q c).cache.pose.transformPoint v) := by
  intro a
  refine same_add (opposite_rotate q v a) ?_
  simp only [fromRotationAndCamcenter, opposite_matrix]
  exact Flt.Same.refl _

theorem opposite_poseInv (q : Quat (RustFloat f lib)) (c : V3 (RustFloat f lib)) (v : V3 (RustFloat f lib)) :
    SameV ((fromRotationAndCamcenter q.opposite c).cache.poseInv.transformPoint v)
      ((fromRotationAndCamcenter q c).cache.poseInv.transformPoint v) := by
  intro a
  refine same_add (opposite_rotate q.inverse v a) ?_
  simp only [fromRotationAndCamcenter, opposite_matrix]
  exact opposite_rotate q.inverse _ a

/-- **C94**: with the opposite quaternion, `world_to_camera` and `camera_to_world` give the same numbers (only the sign
of a zero may differ), for every point, centre and quaternion whatsoever. -/
theorem c94_opposite_points (q : Quat (RustFloat f lib)) (c : V3 (RustFloat f lib)) :
    (∀ {n : ℕ} (w : Points WorldFrame (RustFloat f lib) n) i a,
      Flt.Same (f := f) (((fromRotationAndCamcenter q.opposite c).worldToCamera w).data i a)
        (((fromRotationAndCamcenter q c).worldToCamera w).data i a)) ∧
    ∀ {n : ℕ} (w : Points CameraFrame (RustFloat f lib) n) i a,
      Flt.Same (f := f) (((fromRotationAndCamcenter q.opposite c).cameraToWorld w).data i a)
        (((fromRotationAndCamcenter q c).cameraToWorld w).data i a) := by
  refine ⟨fun w i a => ?_, fun w i a => ?_⟩
  · rw [worldToCamera_data, worldToCamera_data]
    exact opposite_pose q c _ a
  · rw [cameraToWorld_data, cameraToWorld_data]
    exact opposite_poseInv q c _ a

theorem same_mulVec4 {m : ℕ} (A : Mat m 4 (RustFloat f lib)) {v w : V3 (RustFloat f lib)} (h : SameV v w) :
    SameV (Mat.mulVec4 A (V3.toHomogeneous v)) (Mat.mulVec4 A (V3.toHomogeneous w)) := fun _ =>
  same_add (same_add (same_add (same_mul (Flt.Same.refl _) (h 0)) (same_mul (Flt.Same.refl _) (h 1)))
    (same_mul (Flt.Same.refl _) (h 2))) (Flt.Same.refl _)

/-- **C94**: with the opposite quaternion, a perspective camera computes the same pixels, or neither pixel is finite; an
orthographic camera computes the same pixels. -/
theorem c94_opposite_pixels (q : Quat (RustFloat f lib)) (c : V3 (RustFloat f lib)) {n : ℕ}
    (w : Points WorldFrame (RustFloat f lib) n) (i : Fin n) (a : Fin 2) :
    (∀ (intr : IntrinsicParametersPerspective (RustFloat f lib)) (px px' : RustFloat f lib),
      px = ((Camera.mk intr (fromRotationAndCamcenter q c)).worldToPixel w).data i a →
      px' = ((Camera.mk intr (fromRotationAndCamcenter q.opposite c)).worldToPixel w).data i a →
      Flt.Same (f := f) px' px ∨ (¬ Flt.isFinite (f := f) px' ∧ ¬ Flt.isFinite (f := f) px)) ∧
    ∀ (intr : IntrinsicParametersOrthographic (RustFloat f lib)),
      Flt.Same (f := f) (((Camera.mk intr (fromRotationAndCamcenter q.opposite c)).worldToPixel w).data i a)
        (((Camera.mk intr (fromRotationAndCamcenter q c)).worldToPixel w).data i a) := by
  have hp : SameV (((fromRotationAndCamcenter q.opposite c).worldToCamera w).data i)
      (((fromRotationAndCamcenter q c).worldToCamera w).data i) := (c94_opposite_points q c).1 w i
  refine ⟨?_, ?_⟩
  · rintro intr _ _ rfl rfl
    show Flt.Same (f := f) ((intr.cameraToPixel _).data i a) ((intr.cameraToPixel _).data i a) ∨
      (¬ Flt.isFinite (f := f) ((intr.cameraToPixel _).data i a) ∧ ¬ Flt.isFinite (f := f) ((intr.cameraToPixel _).data i a))
    rw [persp_cameraToPixel, persp_cameraToPixel]
    have h := same_mulVec4 intr.cacheP hp
    fin_cases a
    · exact Flt.Same.div (h 0) (h 2)
    · exact Flt.Same.div (h 1) (h 2)
  · intro intr
    show Flt.Same (f := f) ((intr.cameraToPixel _).data i a) ((intr.cameraToPixel _).data i a)
    rw [ortho_cameraToPixel, ortho_cameraToPixel]
    fin_cases a
    · exact same_add (same_mul (hp 0) (Flt.Same.refl _)) (Flt.Same.refl _)
    · exact same_add (same_mul (hp 1) (Flt.Same.refl _)) (Flt.Same.refl _)

/-! ### No rotation -/

/-- `x` is the finite number `r`. -/
def Is (x : RustFloat f lib) (r : ℝ) : Prop := Flt.isFinite (f := f) x ∧ Flt.val (f := f) x = r

theorem Is.same {x y : RustFloat f lib} {r : ℝ} (h : Is x r) (k : Is y r) : Flt.Same (f := f) x y :=
  Flt.same_of_val h.1 k.1 (h.2.trans k.2.symm)

theorem Is.mag {x : RustFloat f lib} {r : ℝ} (h : Is x r) : f.Mag |r| := by
  rw [← h.2]
  exact Flt.mag_val (f := f) x

theorem Is.add {x y : RustFloat f lib} {r s : ℝ} (h : Is x r) (k : Is y s) (m : f.Mag |r + s|) : Is (x + y) (r + s) := by
  show Flt.isFinite (Flt.add x y) ∧ Flt.val (Flt.add x y) = r + s
  rw [Flt.add_eq h.1 k.1, h.2, k.2]
  exact Flt.ofReal_exact m

theorem Is.mul {x y : RustFloat f lib} {r s : ℝ} (h : Is x r) (k : Is y s) (m : f.Mag |r * s|) : Is (x * y) (r * s) := by
  show Flt.isFinite (Flt.mul x y) ∧ Flt.val (Flt.mul x y) = r * s
  rw [Flt.mul_eq h.1 k.1, h.2, k.2]
  exact Flt.ofReal_exact m

theorem Is.neg {x : RustFloat f lib} {r : ℝ} (h : Is x r) : Is (-x) (-r) := by
  refine ⟨(Flt.neg_finite (f := f) x).2 h.1, ?_⟩
  exact (Flt.neg_val (f := f) x).trans (congrArg _ h.2)

theorem Is.sub_zero {x y : RustFloat f lib} {r : ℝ} (h : Is x r) (k : Is y 0) : Is (x - y) r := by
  have := Is.add h k.neg (by rw [neg_zero, _root_.add_zero]; exact h.mag)
  rw [neg_zero, _root_.add_zero] at this
  exact this

theorem Is.add_zero {x y : RustFloat f lib} {r : ℝ} (h : Is x r) (k : Is y 0) : Is (x + y) r := by
  simpa using Is.add h k (by rw [_root_.add_zero]; exact h.mag)

theorem Is.zero_add {x y : RustFloat f lib} {r : ℝ} (h : Is x 0) (k : Is y r) : Is (x + y) r := by
  simpa using Is.add h k (by rw [_root_.zero_add]; exact k.mag)

theorem Is.zero_mul {x y : RustFloat f lib} {r : ℝ} (h : Is x 0) (k : Is y r) : Is (x * y) 0 := by
  simpa using Is.mul h k (by rw [MulZeroClass.zero_mul]; exact h.mag)

theorem Is.mul_zero {x y : RustFloat f lib} {r : ℝ} (h : Is x r) (k : Is y 0) : Is (x * y) 0 := by
  simpa using Is.mul h k (by rw [MulZeroClass.mul_zero]; exact k.mag)

theorem Is.one_mul {x y : RustFloat f lib} {r : ℝ} (h : Is x 1) (k : Is y r) : Is (x * y) r := by
  simpa using Is.mul h k (by rw [_root_.one_mul]; exact k.mag)

theorem Is.mul_one {x y : RustFloat f lib} {r : ℝ} (h : Is x r) (k : Is y 1) : Is (x * y) r := by
  simpa using Is.mul h k (by rw [_root_.mul_one]; exact h.mag)

theorem Is.div_one {x y : RustFloat f lib} {r : ℝ} (h : Is x r) (k : Is y 1) : Is (x / y) r := by
  show Flt.isFinite (Flt.div x y) ∧ Flt.val (Flt.div x y) = r
  rw [Flt.div_eq h.1 k.1 (by rw [k.2]; exact one_ne_zero), h.2, k.2, _root_.div_one]
  exact Flt.ofReal_exact h.mag

theorem is_lit {n : ℕ} (h : n < 8) : Is (Scalar.lit n : RustFloat f lib) n := by
  have h1 := Flt.ofF64_nat (f := f) h
  have e : (Scalar.lit n : RustFloat f lib) = Flt.ofF64 f (n : ℝ) := by
    show Flt.ofF64 f (((n : ℚ) : ℝ)) = _
    rw [Rat.cast_natCast]
  unfold Is
  rw [e]
  exact h1

theorem is_lit_zero : Is (Scalar.lit 0 : RustFloat f lib) 0 := by simpa using is_lit (f := f) (lib := lib) (n := 0) (by norm_num)
theorem is_lit_one : Is (Scalar.lit 1 : RustFloat f lib) 1 := by simpa using is_lit (f := f) (lib := lib) (n := 1) (by norm_num)
theorem is_lit_two : Is (Scalar.lit 2 : RustFloat f lib) 2 := by
  have := is_lit (f := f) (lib := lib) (n := 2) (by norm_num)
  push_cast at this
  exact this

theorem is_zero : Is (0 : RustFloat f lib) 0 := Flt.ofReal_exact (by rw [abs_zero]; exact Flt.mag_zero)
theorem is_one : Is (1 : RustFloat f lib) 1 := Flt.ofReal_exact Flt.mag_one

/-- The identity rotation: `w = 1` and the other components are (possibly negative) zeros. -/
def Quat.IsIdentity (q : Quat (RustFloat f lib)) : Prop := Is q.w 1 ∧ Is q.i 0 ∧ Is q.j 0 ∧ Is q.k 0

theorem identity_inverse {q : Quat (RustFloat f lib)} (h : q.IsIdentity) : q.inverse.IsIdentity := by
  have e : ∀ {x : RustFloat f lib}, Is x 0 → Is (-x) 0 := fun k => by simpa using k.neg
  exact ⟨h.1, e h.2.1, e h.2.2.1, e h.2.2.2⟩

theorem zero_cross {a b : V3 (RustFloat f lib)} {r : Fin 3 → ℝ} (h : ∀ i, Is (a i) 0) (k : ∀ i, Is (b i) (r i)) :
    ∀ i, Is (V3.cross a b i) 0 := by
  intro i
  fin_cases i
  · exact ((h 1).zero_mul (k 2)).sub_zero ((h 2).zero_mul (k 1))
  · exact ((h 2).zero_mul (k 0)).sub_zero ((h 0).zero_mul (k 2))
  · exact ((h 0).zero_mul (k 1)).sub_zero ((h 1).zero_mul (k 0))

theorem identity_rotate {q : Quat (RustFloat f lib)} (h : q.IsIdentity) {v : V3 (RustFloat f lib)} {r : Fin 3 → ℝ}
    (k : ∀ i, Is (v i) (r i)) : ∀ i, Is (q.rotate v i) (r i) := by
  have hq : ∀ i, Is (q.vector i) 0 := by
    intro i
    fin_cases i
    · exact h.2.1
    · exact h.2.2.1
    · exact h.2.2.2
  have t : ∀ i, Is (V3.scale (V3.cross q.vector v) (Scalar.lit 2) i) 0 := fun i =>
    (zero_cross hq k i).zero_mul is_lit_two
  intro i
  exact (((t i).zero_mul h.1).zero_add (zero_cross hq t i)).zero_add (k i)

theorem identity_matrix {q : Quat (RustFloat f lib)} (h : q.IsIdentity) :
    ∀ i j, Is (q.toRotationMatrix i j) (if i = j then 1 else 0) := by
  obtain ⟨hw, hi, hj, hk⟩ := h
  have ww := hw.mul_one hw
  have ii := hi.zero_mul hi
  have jj := hj.zero_mul hj
  have kk := hk.zero_mul hk
  have ij := (hi.zero_mul hj).zero_mul is_lit_two
  have wk := (hw.mul_zero hk).zero_mul is_lit_two
  have wj := (hw.mul_zero hj).zero_mul is_lit_two
  have ik := (hi.zero_mul hk).zero_mul is_lit_two
  have jk := (hj.zero_mul hk).zero_mul is_lit_two
  have wi := (hw.mul_zero hi).zero_mul is_lit_two
  intro i j
  fin_cases i <;> fin_cases j
  · exact ((ww.add_zero ii).sub_zero jj).sub_zero kk
  · exact ij.sub_zero wk
  · exact wj.add_zero ik
  · exact wk.add_zero ij
  · exact ((ww.sub_zero ii).add_zero jj).sub_zero kk
  · exact jk.sub_zero wi
  · exact ik.sub_zero wj
  · exact wi.add_zero jk
  · exact ((ww.sub_zero ii).sub_zero jj).add_zero kk

theorem identity_translation {q : Quat (RustFloat f lib)} (h : q.IsIdentity) {c : V3 (RustFloat f lib)} {r : Fin 3 → ℝ}
    (k : ∀ i, Is (c i) (r i)) : ∀ i, Is ((fromRotationAndCamcenter q c).cache.translation i) (-r i) := by
  have m := identity_matrix h
  intro i
  refine Is.neg ?_
  fin_cases i
  · exact (((m 0 0).one_mul (k 0)).add_zero ((m 0 1).zero_mul (k 1))).add_zero ((m 0 2).zero_mul (k 2))
  · exact (((m 1 0).zero_mul (k 0)).zero_add ((m 1 1).one_mul (k 1))).add_zero ((m 1 2).zero_mul (k 2))
  · exact (((m 2 0).zero_mul (k 0)).zero_add ((m 2 1).zero_mul (k 1))).zero_add ((m 2 2).one_mul (k 2))

theorem identity_poseTranslation {q : Quat (RustFloat f lib)} (h : q.IsIdentity) {c : V3 (RustFloat f lib)}
    {r : Fin 3 → ℝ} (k : ∀ i, Is (c i) (r i)) :
    ∀ i, Is ((fromRotationAndCamcenter q c).cache.poseInv.translation i) (r i) := by
  have t : ∀ i, Is (V3.neg (fromRotationAndCamcenter q c).cache.translation i) (r i) := fun i => by
    have := (identity_translation h k i).neg
    rw [_root_.neg_neg] at this
    exact this
  exact identity_rotate (identity_inverse h) t

theorem finite_is {x : RustFloat f lib} (h : Flt.isFinite (f := f) x) : Is x (Flt.val (f := f) x) := ⟨h, rfl⟩

/-- **C94**: a camera that is not rotated subtracts its centre from finite points, and adds it back, with one rounding
per coordinate: `world_to_camera` is `v - c` and `camera_to_world` is `v + c`, computed in the float type. -/
theorem c94_not_rotated (q : Quat (RustFloat f lib)) (hq : q.IsIdentity) (c : V3 (RustFloat f lib))
    (hc : ∀ a, Flt.isFinite (f := f) (c a)) :
    (∀ {n : ℕ} (w : Points WorldFrame (RustFloat f lib) n) i, (∀ a, Flt.isFinite (f := f) (w.data i a)) →
      ∀ a, Flt.Same (f := f) (((fromRotationAndCamcenter q c).worldToCamera w).data i a) (w.data i a - c a)) ∧
    ∀ {n : ℕ} (w : Points CameraFrame (RustFloat f lib) n) i, (∀ a, Flt.isFinite (f := f) (w.data i a)) →
      ∀ a, Flt.Same (f := f) (((fromRotationAndCamcenter q c).cameraToWorld w).data i a) (w.data i a + c a) := by
  refine ⟨fun w i hw a => ?_, fun w i hw a => ?_⟩
  · rw [worldToCamera_data]
    refine same_add ((identity_rotate hq (fun b => finite_is (hw b)) a).same (finite_is (hw a))) ?_
    exact (identity_translation hq (fun b => finite_is (hc b)) a).same (Is.neg (finite_is (hc a)))
  · rw [cameraToWorld_data]
    refine same_add ((identity_rotate (identity_inverse hq) (fun b => finite_is (hw b)) a).same (finite_is (hw a))) ?_
    exact (identity_poseTranslation hq (fun b => finite_is (hc b)) a).same (finite_is (hc a))

/-- **C94**: a camera in the origin that is not rotated, with unit focal lengths or scales and without skew and offset,
does not round: projecting the point on the ray of a finite pixel gives back that pixel. -/
theorem c94_unit_camera (q : Quat (RustFloat f lib)) (hq : q.IsIdentity) (c : V3 (RustFloat f lib))
    (hc : ∀ a, Is (c a) 0) {n : ℕ} (px : Pixels (RustFloat f lib) n) (i : Fin n)
    (hp : ∀ a, Flt.isFinite (f := f) (px.data i a)) (a : Fin 2) :
    (∀ p : PerspectiveParams (RustFloat f lib), Is p.fx 1 → Is p.fy 1 → Is p.skew 0 → Is p.cx 0 → Is p.cy 0 →
      let cam := Camera.mk (IntrinsicParametersPerspective.ofParams p) (fromRotationAndCamcenter q c)
      Flt.Same (f := f) ((cam.worldToPixel (cam.pixelToWorld px).pointOnRay).data i a) (px.data i a)) ∧
    ∀ p : OrthographicParams (RustFloat f lib), Is p.sx 1 → Is p.sy 1 → Is p.cx 0 → Is p.cy 0 →
      let cam := Camera.mk (IntrinsicParametersOrthographic.ofParams p) (fromRotationAndCamcenter q c)
      Flt.Same (f := f) ((cam.worldToPixel (cam.pixelToWorld px).pointOnRay).data i a) (px.data i a) := by
  have ht : ∀ b, Is ((fromRotationAndCamcenter q c).cache.translation b) 0 := fun b => by
    simpa using identity_translation hq (r := fun _ => 0) hc b
  have hit := identity_poseTranslation hq (r := fun _ => 0) hc
  have hpos : ∀ {v : V3 (RustFloat f lib)} {r : Fin 3 → ℝ}, (∀ b, Is (v b) (r b)) →
      ∀ b, Is ((fromRotationAndCamcenter q c).cache.pose.transformPoint v b) (r b) := fun k b =>
    (identity_rotate hq k b).add_zero (ht b)
  have hinv : ∀ {v : V3 (RustFloat f lib)} {r : Fin 3 → ℝ}, (∀ b, Is (v b) (r b)) →
      ∀ b, Is ((fromRotationAndCamcenter q c).cache.poseInv.transformPoint v b) (r b) := fun k b =>
    (identity_rotate (identity_inverse hq) k b).add_zero (hit b)
  have h0 := finite_is (hp 0)
  have h1 := finite_is (hp 1)
  refine ⟨?_, ?_⟩
  · intro p hfx hfy hsk hcx hcy cam
    have y := (h1.sub_zero hcy).div_one hfy
    have x := ((h0.sub_zero (hsk.zero_mul y)).sub_zero hcx).div_one hfx
    have hcam : ∀ b, Is (((IntrinsicParametersPerspective.ofParams p).pixelToCamera px).data i b)
        (![Flt.val (f := f) (px.data i 0), Flt.val (f := f) (px.data i 1), 1] b) := by
      rw [persp_pixelToCamera]
      intro b
      fin_cases b
      · exact x
      · exact y
      · exact is_lit_one
    have hray : ∀ b, Is (((cam.pixelToWorld px).pointOnRay).data i b)
        (![Flt.val (f := f) (px.data i 0), Flt.val (f := f) (px.data i 1), 1] b) := by
      intro b
      show Is ((SharedOriginRayBundle.pointOnRay _ _ : Points WorldFrame (RustFloat f lib) n).data i b) _
      rw [so_pointOnRay]
      show Is ((SharedOriginRayBundle.toPose _ _ _ : RayBundle WorldFrame _ (RustFloat f lib) n).bundleType.center b +
        (SharedOriginRayBundle.toPose _ _ _ : RayBundle WorldFrame _ (RustFloat f lib) n).data i b) _
      rw [so_toPose]
      refine Is.zero_add (hinv (r := fun _ => 0) ?_ b) (identity_rotate (identity_inverse hq) hcam b)
      intro d
      show Is (((IntrinsicParametersPerspective.ofParams p).pixelToCamera px).bundleType.center d) 0
      rw [persp_pixelToCamera]
      fin_cases d <;> exact is_lit_zero
    have hw : ∀ b, Is (((fromRotationAndCamcenter q c).worldToCamera (cam.pixelToWorld px).pointOnRay).data i b)
        (![Flt.val (f := f) (px.data i 0), Flt.val (f := f) (px.data i 1), 1] b) := by
      rw [worldToCamera_data]
      exact hpos hray
    have w0 : Is _ (Flt.val (f := f) (px.data i 0)) := hw 0
    have w1 : Is _ (Flt.val (f := f) (px.data i 1)) := hw 1
    have w2 : Is _ 1 := hw 2
    have z0 : Is (Scalar.lit 0 : RustFloat f lib) 0 := is_lit_zero
    have e2 := (((z0.zero_mul w0).zero_add (z0.zero_mul w1)).zero_add (is_lit_one.one_mul w2)).add_zero (z0.zero_mul is_one)
    have e0 := (((hfx.one_mul w0).add_zero (hsk.zero_mul w1)).add_zero (hcx.zero_mul w2)).add_zero (z0.zero_mul is_one)
    have e1 := (((z0.zero_mul w0).zero_add (hfy.one_mul w1)).add_zero (hcy.zero_mul w2)).add_zero (z0.zero_mul is_one)
    show Flt.Same (f := f) (((IntrinsicParametersPerspective.ofParams p).cameraToPixel _).data i a) _
    rw [persp_cameraToPixel]
    fin_cases a
    · exact (e0.div_one e2).same h0
    · exact (e1.div_one e2).same h1
  · intro p hsx hsy hcx hcy cam
    have hcam : ∀ b, Is (((IntrinsicParametersOrthographic.ofParams p).pixelToCamera px).data i b)
        (![Flt.val (f := f) (px.data i 0), Flt.val (f := f) (px.data i 1), 0] b) := by
      rw [ortho_pixelToCamera]
      intro b
      fin_cases b
      · exact (h0.sub_zero hcx).div_one hsx
      · exact (h1.sub_zero hcy).div_one hsy
      · exact is_lit_zero
    have hray : ∀ b, Is (((cam.pixelToWorld px).pointOnRay).data i b)
        (![Flt.val (f := f) (px.data i 0), Flt.val (f := f) (px.data i 1), 1] b) := by
      intro b
      show Is ((SharedDirectionRayBundle.pointOnRay _ _ : Points WorldFrame (RustFloat f lib) n).data i b) _
      rw [sd_pointOnRay]
      show Is ((SharedDirectionRayBundle.toPose _ _ _ : RayBundle WorldFrame _ (RustFloat f lib) n).bundleType.direction b +
        (SharedDirectionRayBundle.toPose _ _ _ : RayBundle WorldFrame _ (RustFloat f lib) n).data i b) _
      rw [sd_toPose]
      have hd : ∀ b, Is ((SharedDirectionRayBundle.newPluszSharedDirection :
          SharedDirectionRayBundle (RustFloat f lib)).direction b) ((![0, 0, 1] : Fin 3 → ℝ) b) := by
        intro b
        fin_cases b
        · exact is_zero
        · exact is_zero
        · exact is_one
      have r1 := identity_rotate (identity_inverse hq) hd
      have r2 := hinv hcam
      fin_cases b
      · exact Is.zero_add (r1 0) (r2 0)
      · exact Is.zero_add (r1 1) (r2 1)
      · exact Is.add_zero (r1 2) (r2 2)
    have hw : ∀ b, Is (((fromRotationAndCamcenter q c).worldToCamera (cam.pixelToWorld px).pointOnRay).data i b)
        (![Flt.val (f := f) (px.data i 0), Flt.val (f := f) (px.data i 1), 1] b) := by
      rw [worldToCamera_data]
      exact hpos hray
    show Flt.Same (f := f) (((IntrinsicParametersOrthographic.ofParams p).cameraToPixel _).data i a) _
    rw [ortho_cameraToPixel]
    fin_cases a
    · exact (((hw 0).mul_one hsx).add_zero hcx).same h0
    · exact (((hw 1).mul_one hsy).add_zero hcy).same h1

/-- Two rays, the second reversed; the reversed directions differ. -/
example (trySvd : TrySvd (F64 lib')) :
    let r : Ray WorldFrame (RustFloat f lib) := ⟨![0, 0, 0], ![1, 0, 0]⟩
    let s : Ray WorldFrame (RustFloat f lib) := ⟨![0, 1, 0], ![0, 1, 1]⟩
    let s' : Ray WorldFrame (RustFloat f lib) := ⟨![0, 1, 0], fun a => -![0, 1, 1] a⟩
    bestIntersectionOfRays trySvd [r, s'] = bestIntersectionOfRays trySvd [r, s] ∧ s.direction ≠ s'.direction := by
  intro r s s'
  refine ⟨c94_reversed_rays trySvd _ _ (.cons ⟨rfl, .inl rfl⟩ (.cons ⟨rfl, .inr fun _ => rfl⟩ .nil)), fun h => ?_⟩
  have h1 := congrFun h 1
  have e : Is (1 : RustFloat f lib) (-1) := by
    have : (1 : RustFloat f lib) = -1 := h1
    rw [this]
    exact is_one.neg
  have := e.2.symm.trans is_one.2
  norm_num at this

/-- The opposite of the identity quaternion is another quaternion. -/
example : (⟨1, 0, 0, 0⟩ : Quat (RustFloat f lib)).opposite ≠ ⟨1, 0, 0, 0⟩ := by
  intro h
  have h1 : -(1 : RustFloat f lib) = 1 := congrArg Quat.w h
  have e : Is (1 : RustFloat f lib) (-1) := by
    have := is_one.neg (f := f) (lib := lib)
    rw [h1] at this
    exact this
  have := e.2.symm.trans is_one.2
  norm_num at this

/-- The identity quaternion is such a rotation. -/
example : (⟨1, 0, 0, 0⟩ : Quat (RustFloat f lib)).IsIdentity := ⟨is_one, is_zero, is_zero, is_zero⟩

/-- A unit camera and the pixel `(3, 1)`, which comes back. -/
example :
    let cam := Camera.mk (IntrinsicParametersPerspective.ofParams (⟨1, 1, 0, 0, 0⟩ : PerspectiveParams (RustFloat f lib)))
      (fromRotationAndCamcenter ⟨1, 0, 0, 0⟩ ![0, 0, 0])
    let px : Pixels (RustFloat f lib) 1 := ⟨fun _ => ![Scalar.lit (3 : ℕ), 1]⟩
    Is ((cam.worldToPixel (cam.pixelToWorld px).pointOnRay).data 0 0) 3 := by
  intro cam px
  have h3 : Is (Scalar.lit (3 : ℕ) : RustFloat f lib) 3 := by
    have := is_lit (f := f) (lib := lib) (n := 3) (by norm_num)
    push_cast at this ⊢
    exact this
  have := (c94_unit_camera ⟨1, 0, 0, 0⟩ ⟨is_one, is_zero, is_zero, is_zero⟩ ![0, 0, 0]
    (fun a => by fin_cases a <;> exact is_zero) px 0
    (fun a => by
      fin_cases a
      · exact h3.1
      · exact is_one.1) 0).1 ⟨1, 1, 0, 0, 0⟩ is_one is_one is_zero is_zero is_zero
  exact ⟨(Flt.same_finite this).2 h3.1, (Flt.same_val this).trans h3.2⟩

end Float

end CamGeom
