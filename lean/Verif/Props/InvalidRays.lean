import Verif.Lemmas.XReal
import Verif.Lemmas.Loops
import Verif.Model.RayIntersection
import Verif.Model.RayBundleTypes

/-!
# C62: rays without a direction, and non-finite rays

Every scalar type with IEEE special values (`f32`, `f64`), whatever its precision, and every SVD routine.
-/

namespace CamGeom

variable {R F : Type} [Scalar R] [Scalar F] [F64Conv R F]

/-- The conversions between the scalar type and `f64` keep infinities and NaN non-finite. -/
structure ConvIeee (fR : Ieee R) (fF : Ieee F) : Prop where
  toF : ∀ {x : R} {y : F}, F64Conv.toF64 x = some y → ¬ fR.isFinite x → ¬ fF.isFinite y
  ofF : ∀ {y : F}, ¬ fF.isFinite y → ¬ fR.isFinite (F64Conv.ofF64 y : R)

theorem foldl_not_finite (fF : Ieee F) (l : List F) (s : F)
    (h : ¬ fF.isFinite s ∨ ∃ y ∈ l, ¬ fF.isFinite y) : ¬ fF.isFinite (l.foldl (· + ·) s) := by
  induction l generalizing s with
  | nil => simpa using h
  | cons a l ih =>
    rw [List.foldl_cons]
    apply ih
    rcases h with h | ⟨y, hy, h⟩
    · exact .inl (fF.add_inf_left h)
    · rcases List.mem_cons.1 hy with rfl | hy
      · exact .inl (fF.add_inf_right h)
      · exact .inr ⟨y, hy, h⟩

theorem mapM_some_mem {α β : Type} {f : α → Option β} : ∀ {l : List α} {l' : List β},
    l.mapM f = some l' → ∀ x ∈ l, ∃ y ∈ l', f x = some y
  | [], _, _, x, hx => by simp at hx
  | a :: l, l', h, x, hx => by
    rw [List.mapM_cons] at h
    cases ha : f a with
    | none => rw [ha] at h; cases h
    | some b =>
      cases hl : l.mapM f with
      | none => rw [ha, hl] at h; cases h
      | some m =>
        rw [ha, hl] at h
        cases h
        rcases List.mem_cons.1 hx with rfl | hx
        · exact ⟨b, List.mem_cons_self .., ha⟩
        · obtain ⟨y, hy, e⟩ := mapM_some_mem hl x hx
          exact ⟨y, List.mem_cons_of_mem _ hy, e⟩

/-- A sum with a non-finite term is not finite. -/
theorem sumAsF64_not_finite {fR : Ieee R} {fF : Ieee F} (hc : ConvIeee fR fF) {n : ℕ} {x : Fin n → R}
    {s : F} (hs : sumAsF64 x = .ok s) {i : Fin n} (hi : ¬ fR.isFinite (x i)) : ¬ fF.isFinite s := by
  unfold sumAsF64 at hs
  split at hs
  · rename_i l hl
    cases hs
    obtain ⟨y, hy, e⟩ := mapM_some_mem hl (x i) (by rw [List.mem_ofFn]; exact ⟨i, rfl⟩)
    exact foldl_not_finite fF _ _ (.inr ⟨y, hy, hc.toF e hi⟩)
  · cases hs

theorem outcome_bind_ok {α β : Type} {x : Outcome α} {f : α → Outcome β} {b : β} (h : (x >>= f) = .ok b) :
    ∃ a, x = .ok a ∧ f a = .ok b := by
  cases x with
  | ok a => exact ⟨a, rfl, h⟩
  | err e => cases h
  | panic => cases h

/-- The normalization of a zero vector is NaN, and that of a vector with a non-finite component is NaN in
that component. -/
theorem normalize_nan (fR : Ieee R) (d : V3 R)
    (h : (∀ a, fR.isZero (d a)) ∨ ∃ a, ¬ fR.isFinite (d a)) : ∃ a, fR.isNan (V3.normalize d a) := by
  rcases h with h | ⟨a, h⟩
  · refine ⟨0, fR.zero_div_zero (h 0) (fR.sqrt_zero ?_)⟩
    have h1 : ∀ a, fR.isZero (d a * d a) := fun a => fR.zero_mul (h a) (fR.zero_finite (h a))
    exact fR.zero_add (fR.zero_add (h1 0) (h1 1)) (h1 2)
  · refine ⟨a, fR.inf_div_inf h (fR.sqrt_inf ?_)⟩
    have h1 : ¬ fR.isFinite (d a * d a) := fR.mul_inf_left h
    fin_cases a
    · exact fR.add_inf_left (fR.add_inf_left h1)
    · exact fR.add_inf_left (fR.add_inf_right h1)
    · exact fR.add_inf_right h1

/-- C62: if one of the rays has a zero direction, or a NaN or infinity in its direction or centre, then
`best_intersection_of_rays`, if it returns a point at all, returns one without any finite coordinate. -/
theorem c62_invalid_ray {fR : Ieee R} {fF : Ieee F} (hc : ConvIeee fR fF) (trySvd : TrySvd F)
    {Coords : Type} {rays : List (Ray Coords R)} {r : Ray Coords R} (hr : r ∈ rays)
    (h : (∀ a, fR.isZero (r.direction a)) ∨ (∃ a, ¬ fR.isFinite (r.direction a)) ∨
      ∃ a, ¬ fR.isFinite (r.center a))
    {pt : Points Coords R 1} (hb : bestIntersectionOfRays trySvd rays = .ok pt) (j : Fin 3) :
    ¬ fR.isFinite (pt.data 0 j) := by
  obtain ⟨i, hi⟩ := List.get_of_mem hr
  have h' : (∃ a, fR.isNan (V3.normalize (rays.get i).direction a)) ∨
      ∃ a, ¬ fR.isFinite ((rays.get i).center a) := by
    rw [hi]
    rcases h with h | h | h
    · exact .inl (normalize_nan fR _ (.inl h))
    · exact .inl (normalize_nan fR _ (.inr h))
    · exact .inr h
  unfold bestIntersectionOfRays at hb
  split at hb
  · cases hb
  simp only [zipLoop_eq, lineDirs_eq, linePoints_eq] at hb
  obtain ⟨SXX, -, hb⟩ := outcome_bind_ok hb
  obtain ⟨SYY, -, hb⟩ := outcome_bind_ok hb
  obtain ⟨SZZ, -, hb⟩ := outcome_bind_ok hb
  obtain ⟨SXY, -, hb⟩ := outcome_bind_ok hb
  obtain ⟨SXZ, -, hb⟩ := outcome_bind_ok hb
  obtain ⟨SYZ, -, hb⟩ := outcome_bind_ok hb
  obtain ⟨CX, hX, hb⟩ := outcome_bind_ok hb
  obtain ⟨CY, hY, hb⟩ := outcome_bind_ok hb
  obtain ⟨CZ, hZ, hb⟩ := outcome_bind_ok hb
  obtain ⟨p, -, hb⟩ := outcome_bind_ok hb
  have three : ∀ (x₁ x₂ x₃ y₁ y₂ y₃ : R) (hn : ¬ fR.isFinite (x₁ * y₁) ∨ ¬ fR.isFinite (x₂ * y₂) ∨
      ¬ fR.isFinite (x₃ * y₃)), ¬ fR.isFinite (x₁ * y₁ + x₂ * y₂ + x₃ * y₃) := by
    intro x₁ x₂ x₃ y₁ y₂ y₃ hn
    rcases hn with hn | hn | hn
    · exact fR.add_inf_left (fR.add_inf_left hn)
    · exact fR.add_inf_left (fR.add_inf_right hn)
    · exact fR.add_inf_right hn
  set u := V3.normalize (rays.get i).direction
  set c := (rays.get i).center
  have nn : ∀ {x : R}, fR.isNan x → ¬ fR.isFinite x := fR.nan_not_finite
  have sq : ∀ {x : R}, fR.isNan x → ∀ m : R, fR.isNan (Scalar.powi x 2 + m) := fun hx m =>
    fR.add_nan_left (fR.powi_nan (by decide) hx)
  have key : ¬ fF.isFinite CX ∧ ¬ fF.isFinite CY ∧ ¬ fF.isFinite CZ := by
    refine ⟨sumAsF64_not_finite hc hX (i := i) (three _ _ _ _ _ _ ?_),
      sumAsF64_not_finite hc hY (i := i) (three _ _ _ _ _ _ ?_),
      sumAsF64_not_finite hc hZ (i := i) (three _ _ _ _ _ _ ?_)⟩
    all_goals
      rcases h' with ⟨a, ha⟩ | ⟨a, ha⟩
      · match a, ha with
        | 0, ha => first
          | exact .inl (nn (fR.mul_nan_right (sq ha _)))
          | exact .inl (nn (fR.mul_nan_right (fR.mul_nan_left ha)))
        | 1, ha => first
          | exact .inr (.inl (nn (fR.mul_nan_right (sq ha _))))
          | exact .inr (.inl (nn (fR.mul_nan_right (fR.mul_nan_left ha))))
          | exact .inr (.inl (nn (fR.mul_nan_right (fR.mul_nan_right ha))))
        | 2, ha => first
          | exact .inr (.inr (nn (fR.mul_nan_right (sq ha _))))
          | exact .inr (.inr (nn (fR.mul_nan_right (fR.mul_nan_right ha))))
      · match a, ha with
        | 0, ha => exact .inl (fR.mul_inf_left ha)
        | 1, ha => exact .inr (.inl (fR.mul_inf_left ha))
        | 2, ha => exact .inr (.inr (fR.mul_inf_left ha))
  cases hb
  rw [forRange_set_row]
  simp only [if_true]
  exact three _ _ _ _ _ _ (.inl (fR.mul_inf_right (hc.ofF key.1)))

theorem norm_zero (fR : Ieee R) {d : V3 R} (h : ∀ a, fR.isZero (d a)) : fR.isZero (V3.norm d) := by
  have h1 : ∀ a, fR.isZero (d a * d a) := fun a => fR.zero_mul (h a) (fR.zero_finite (h a))
  exact fR.sqrt_zero (fR.zero_add (fR.zero_add (h1 0) (h1 1)) (h1 2))

/-- C62: a point at a given distance along a ray of zero direction, or at a non-finite distance, has no
finite coordinate (rays sharing an origin). -/
theorem c62_at_distance_shared_origin (fR : Ieee R) {Coords : Type} {n : ℕ}
    (b : SharedOriginRayBundle R) (dirs : Mat n 3 R) (t : R) (i : Fin n)
    (h : (∀ a, fR.isZero (dirs i a)) ∨ ¬ fR.isFinite t) (j : Fin 3) :
    ¬ fR.isFinite ((b.pointOnRayAtDistance dirs t : Points Coords R n).data i j) := by
  rw [so_pointOnRayAtDistance]
  refine fR.add_inf_right (fR.mul_inf_left ?_)
  rcases h with h | h
  · exact fR.div_zero (norm_zero fR h)
  · exact fR.div_inf_left h

/-- C62: the same for rays sharing a direction. -/
theorem c62_at_distance_shared_direction (fR : Ieee R) {Coords : Type} {n : ℕ}
    (b : SharedDirectionRayBundle R) (cs : Mat n 3 R) (t : R) (i : Fin n)
    (h : (∀ a, fR.isZero (b.direction a)) ∨ ¬ fR.isFinite t) (j : Fin 3) :
    ¬ fR.isFinite ((b.pointOnRayAtDistance cs t : Points Coords R n).data i j) := by
  rw [sd_pointOnRayAtDistance]
  refine fR.add_inf_left (fR.mul_inf_left ?_)
  rcases h with h | h
  · exact fR.div_zero (norm_zero fR h)
  · exact fR.div_inf_left h

/-- Non-vacuity: with the scalar type equal to `f64` the conversions are identities. -/
example : letI : F64Conv XR XR := ⟨some, id⟩
    ConvIeee (R := XR) (F := XR) XR.ieee XR.ieee :=
  letI : F64Conv XR XR := ⟨some, id⟩
  ⟨fun e h => by cases e; exact h, fun h => h⟩

/-- Non-vacuity: a ray with zero direction. -/
example : ∀ a, XR.ieee.isZero ((⟨fun _ => .num 1, fun _ => .negZero⟩ : Ray WorldFrame XR).direction a) :=
  fun _ => trivial

end CamGeom
