import Verif.Model.Camera
import Verif.Model.RayIntersection
import Verif.Model.TestUtils
import Mathlib.Data.List.FinRange
import Mathlib.Tactic.FinCases
import Mathlib.Data.Fintype.Basic

/-!
# Loops are row-wise maps

For every scalar type (no laws): the index loops of the crate compute row `i` of the output from row
`i` of the input.
-/

namespace CamGeom

section general
variable {R : Type} {n k : ℕ}

theorem foldl_set_row (l : List (Fin k)) (i : Fin n) (v : Fin k → R) (acc : Mat n k R) :
    l.foldl (fun s j => Mat.set s i j (v j)) acc =
      fun i' j' => if i' = i ∧ j' ∈ l then v j' else acc i' j' := by
  induction l generalizing acc with
  | nil => simp
  | cons a l ih =>
    rw [List.foldl_cons, ih]
    funext i' j'
    simp only [Mat.set, List.mem_cons]
    by_cases h1 : i' = i
    · by_cases h2 : j' ∈ l
      · simp [h1, h2]
      · by_cases h3 : j' = a
        · simp [h1, h3]
        · simp [h1, h2, h3]
    · simp [h1]

/-- Inner loop `for j in 0..k { m[(i,j)] = v[j] }`. -/
theorem forRange_set_row (i : Fin n) (v : Fin k → R) (acc : Mat n k R) :
    forRange k acc (fun j s => Mat.set s i j (v j)) =
      fun i' j' => if i' = i then v j' else acc i' j' := by
  unfold forRange
  rw [foldl_set_row]
  simp

theorem foldl_rows (l : List (Fin n)) (f : Mat n k R) (body : Fin n → Mat n k R → Mat n k R)
    (h : ∀ i acc, body i acc = fun i' j' => if i' = i then f i j' else acc i' j') (acc : Mat n k R) :
    l.foldl (fun s i => body i s) acc = fun i' j' => if i' ∈ l then f i' j' else acc i' j' := by
  induction l generalizing acc with
  | nil => simp
  | cons a l ih =>
    rw [List.foldl_cons, ih, h]
    funext i' j'
    by_cases h2 : i' ∈ l
    · simp [h2]
    · by_cases h3 : i' = a
      · subst h3; simp
      · simp [h2, h3]

/-- Outer loop: if iteration `i` overwrites row `i` with `f i`, the loop computes `f`. -/
theorem forRange_rows (init f : Mat n k R) (body : Fin n → Mat n k R → Mat n k R)
    (h : ∀ i acc, body i acc = fun i' j' => if i' = i then f i j' else acc i' j') :
    forRange n init body = f := by
  unfold forRange
  rw [foldl_rows _ f body h]
  simp

theorem set3_row (acc : Mat n 3 R) (i : Fin n) (a b c : R) :
    Mat.set (Mat.set (Mat.set acc i 0 a) i 1 b) i 2 c =
      fun i' j' => if i' = i then ![a, b, c] j' else acc i' j' := by
  funext i' j'
  by_cases h : i' = i
  · fin_cases j' <;> simp [Mat.set, h]
  · simp [Mat.set, h]

theorem set2_row (acc : Mat n 2 R) (i : Fin n) (a b : R) :
    Mat.set (Mat.set acc i 0 a) i 1 b =
      fun i' j' => if i' = i then ![a, b] j' else acc i' j' := by
  funext i' j'
  by_cases h : i' = i
  · fin_cases j' <;> simp [Mat.set, h]
  · simp [Mat.set, h]

theorem vec3_eta {R : Type} (v : V3 R) : (![v 0, v 1, v 2] : V3 R) = v := by
  funext j; fin_cases j <;> rfl

theorem vec2_eta {R : Type} (v : Fin 2 → R) : (![v 0, v 1] : Fin 2 → R) = v := by
  funext j; fin_cases j <;> rfl

end general

section zip
variable {R : Type} [Scalar R] {n : ℕ}

omit [Scalar R] in
theorem foldl_update (l : List (Fin n)) (f acc : Fin n → R) :
    l.foldl (fun s i => Function.update s i (f i)) acc = fun i => if i ∈ l then f i else acc i := by
  induction l generalizing acc with
  | nil => simp
  | cons a l ih =>
    rw [List.foldl_cons, ih]
    funext i
    by_cases h2 : i ∈ l
    · simp [h2]
    · by_cases h3 : i = a
      · subst h3; simp
      · simp [h2, h3]

theorem zipLoop_eq (f : Fin n → R) : zipLoop f = f := by
  unfold zipLoop forRange
  rw [foldl_update]
  simp

end zip

section model
variable {R : Type} [Scalar R] {n : ℕ}

/-! Extrinsics -/

theorem worldToCamera_data (e : ExtrinsicParameters R) (w : Points WorldFrame R n) :
    (e.worldToCamera w).data = fun i => e.cache.pose.transformPoint (w.data i) := by
  unfold ExtrinsicParameters.worldToCamera
  refine forRange_rows _ _ _ fun i acc => ?_
  simp only [forRange_set_row, vec3_eta]

theorem cameraToWorld_data (e : ExtrinsicParameters R) (w : Points CameraFrame R n) :
    (e.cameraToWorld w).data = fun i => e.cache.poseInv.transformPoint (w.data i) := by
  unfold ExtrinsicParameters.cameraToWorld
  refine forRange_rows _ _ _ fun i acc => ?_
  simp only [forRange_set_row, vec3_eta]

/-! Bundles -/

theorem so_directions (b : SharedOriginRayBundle R) (d : Mat n 3 R) : b.directions d = d := by
  unfold SharedOriginRayBundle.directions
  exact forRange_rows _ _ _ fun i acc => forRange_set_row _ _ _

theorem so_centers (b : SharedOriginRayBundle R) (d : Mat n 3 R) :
    b.centers d = fun _ => b.center := by
  unfold SharedOriginRayBundle.centers
  exact forRange_rows _ _ _ fun i acc => forRange_set_row _ _ _

theorem so_pointOnRay {Coords : Type} (b : SharedOriginRayBundle R) (d : Mat n 3 R) :
    (b.pointOnRay d : Points Coords R n).data = fun i j => b.center j + d i j := by
  unfold SharedOriginRayBundle.pointOnRay
  refine forRange_rows _ _ _ fun i acc => ?_
  simp only [vec3_eta]
  exact forRange_set_row _ _ _

theorem so_pointOnRayAtDistance {Coords : Type} (b : SharedOriginRayBundle R) (d : Mat n 3 R) (s : R) :
    (b.pointOnRayAtDistance d s : Points Coords R n).data =
      fun i j => b.center j + s / V3.norm (d i) * d i j := by
  unfold SharedOriginRayBundle.pointOnRayAtDistance
  refine forRange_rows _ _ _ fun i acc => ?_
  simp only [vec3_eta]
  exact forRange_set_row _ _ _

theorem so_toPose {Out : Type} (b : SharedOriginRayBundle R) (p : Isometry R) (d : Mat n 3 R) :
    (b.toPose p d : RayBundle Out _ R n) =
      { data := fun i => p.transformVector (d i), bundleType := ⟨p.transformPoint b.center⟩ } := by
  unfold SharedOriginRayBundle.toPose
  refine RayBundle.ext ?_ rfl
  refine forRange_rows _ _ _ fun i acc => ?_
  exact forRange_set_row _ _ _

theorem sd_directions (b : SharedDirectionRayBundle R) (d : Mat n 3 R) :
    b.directions d = fun _ => b.direction := by
  unfold SharedDirectionRayBundle.directions
  exact forRange_rows _ _ _ fun i acc => forRange_set_row _ _ _

theorem sd_centers (b : SharedDirectionRayBundle R) (d : Mat n 3 R) : b.centers d = d := by
  unfold SharedDirectionRayBundle.centers
  exact forRange_rows _ _ _ fun i acc => forRange_set_row _ _ _

theorem sd_pointOnRay {Coords : Type} (b : SharedDirectionRayBundle R) (d : Mat n 3 R) :
    (b.pointOnRay d : Points Coords R n).data = fun i j => b.direction j + d i j := by
  unfold SharedDirectionRayBundle.pointOnRay
  refine forRange_rows _ _ _ fun i acc => ?_
  simp only [vec3_eta]
  exact forRange_set_row _ _ _

theorem sd_pointOnRayAtDistance {Coords : Type} (b : SharedDirectionRayBundle R) (d : Mat n 3 R)
    (s : R) :
    (b.pointOnRayAtDistance d s : Points Coords R n).data =
      fun i j => s / V3.norm b.direction * b.direction j + d i j := by
  unfold SharedDirectionRayBundle.pointOnRayAtDistance
  refine forRange_rows _ _ _ fun i acc => ?_
  have h := forRange_set_row (k := 3) i
    (fun j => s / V3.norm b.direction * b.direction j + d i j) acc
  refine Eq.trans ?_ h
  congr 1
  funext j acc
  refine congrArg (Mat.set acc i j) ?_
  fin_cases j <;> rfl

theorem sd_toPose {Out : Type} (b : SharedDirectionRayBundle R) (p : Isometry R) (d : Mat n 3 R) :
    (b.toPose p d : RayBundle Out _ R n) =
      { data := fun i => p.transformPoint (d i), bundleType := ⟨p.transformVector b.direction⟩ } := by
  unfold SharedDirectionRayBundle.toPose
  refine RayBundle.ext ?_ rfl
  refine forRange_rows _ _ _ fun i acc => ?_
  exact forRange_set_row _ _ _

/-! Intrinsics -/

theorem persp_pixelToCamera (c : IntrinsicParametersPerspective R) (p : Pixels R n) :
    c.pixelToCamera p =
      { data := fun i =>
          ![(p.data i 0 - c.params.skew * ((p.data i 1 - c.params.cy) / c.params.fy) - c.params.cx)
              / c.params.fx,
            (p.data i 1 - c.params.cy) / c.params.fy, Scalar.lit 1],
        bundleType := SharedOriginRayBundle.newSharedZeroOrigin } := by
  unfold IntrinsicParametersPerspective.pixelToCamera
  simp only [RayBundle.newSharedZeroOrigin]
  congr 1
  refine forRange_rows _ _ _ fun i acc => ?_
  exact set3_row _ _ _ _ _

theorem persp_cameraToPixel (c : IntrinsicParametersPerspective R) (p : Points CameraFrame R n) :
    (c.cameraToPixel p).data = fun i =>
      let rst := Mat.mulVec4 c.cacheP (V3.toHomogeneous (p.data i))
      ![rst 0 / rst 2, rst 1 / rst 2] := by
  unfold IntrinsicParametersPerspective.cameraToPixel
  refine forRange_rows _ _ _ fun i acc => ?_
  simp only [vec3_eta]
  exact set2_row _ _ _ _

theorem ortho_pixelToCamera (c : IntrinsicParametersOrthographic R) (p : Pixels R n) :
    c.pixelToCamera p =
      { data := fun i =>
          ![(p.data i 0 - c.params.cx) / c.params.sx, (p.data i 1 - c.params.cy) / c.params.sy,
            Scalar.lit 0],
        bundleType := SharedDirectionRayBundle.newPluszSharedDirection } := by
  unfold IntrinsicParametersOrthographic.pixelToCamera
  simp only [RayBundle.newSharedPluszDirection]
  congr 1
  refine forRange_rows _ _ _ fun i acc => ?_
  exact set3_row _ _ _ _ _

theorem ortho_cameraToPixel (c : IntrinsicParametersOrthographic R) (p : Points CameraFrame R n) :
    (c.cameraToPixel p).data = fun i =>
      ![p.data i 0 * c.params.sx + c.params.cx, p.data i 1 * c.params.sy + c.params.cy] := by
  unfold IntrinsicParametersOrthographic.cameraToPixel
  refine forRange_rows _ _ _ fun i acc => ?_
  exact set2_row _ _ _ _

/-! Ray intersection -/

theorem lineDirs_eq {Coords : Type} (rays : List (Ray Coords R)) :
    lineDirs rays = fun i => V3.normalize (rays.get i).direction := by
  unfold lineDirs
  refine forRange_rows _ _ _ fun i acc => ?_
  simp only [vec3_eta]
  rw [set3_row]
  simp only [vec3_eta]

theorem linePoints_eq {Coords : Type} (rays : List (Ray Coords R)) :
    linePoints rays = fun i => (rays.get i).center := by
  unfold linePoints
  refine forRange_rows _ _ _ fun i acc => ?_
  simp only []
  rw [set3_row]
  simp only [vec3_eta]

theorem pixelsOfList_data (uv : List (ℕ × ℕ)) :
    (pixelsOfList uv : Pixels R uv.length).data =
      fun i => ![Scalar.lit ((uv.get i).1 : ℚ), Scalar.lit ((uv.get i).2 : ℚ)] := by
  unfold pixelsOfList
  refine forRange_rows _ _ _ fun i acc => ?_
  exact forRange_set_row _ _ _

end model

end CamGeom
