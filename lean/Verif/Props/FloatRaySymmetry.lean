import Verif.Props.NearRays

/-!
# C95: the intersection of rays in floating point does not depend on how the lines are written

In real numbers the point found depends neither on the order of the rays nor on the origin, length and sense chosen
along each line (C33, C34), and moves little when the rays move little (C60).  In floating point each of these is
false as an equation; here it is bounded, for `f64` and `f32`, by the error bounds of C83.
-/

namespace CamGeom
open Spec Matrix Rounding

section
variable {F : Type}

theorem cost_perm {rays rays' : List (Ray F ℝ)} (h : rays.Perm rays') (x : Vec) : cost rays x = cost rays' x :=
  (h.map _).sum_eq

theorem cost_sameLine {rays rays' : List (Ray F ℝ)} (h : List.Forall₂ SameLine rays rays') (x : Vec) :
    cost rays x = cost rays' x := by
  induction h with
  | nil => rfl
  | cons hr _ ih => rw [cost_cons, cost_cons, ih, hr.2.2]

theorem absCos_sameLine {a a' b b' : Ray F ℝ} (ha : SameLine a a') (hb : SameLine b b') :
    absCos a'.direction b'.direction = absCos a.direction b.direction := by
  obtain ⟨k, -, hk, hd, -⟩ := sameLine_params ha
  obtain ⟨k', -, hk', hd', -⟩ := sameLine_params hb
  rw [hd, hd', absCos_smul hk hk']

theorem spread_of_absCos {rays : List (Ray F ℝ)} {a b : Ray F ℝ} (ha : a ∈ rays) (hb : b ∈ rays)
    (h1 : a.direction ≠ 0) (h2 : b.direction ≠ 0) (h : absCos a.direction b.direction < 1 - 1 / 10000000) :
    Spread rays := by
  refine ⟨a, ha, b, hb, ?_⟩
  rw [absCos, div_lt_iff₀ (mul_pos (len_pos.2 h1) (len_pos.2 h2))] at h
  exact h

theorem forall₂_exists {α β : Type} {P : α → β → Prop} {l : List α} {l' : List β} (h : List.Forall₂ P l l') :
    ∀ a ∈ l, ∃ b ∈ l', P a b := by
  induction h with
  | nil => simp
  | cons hr _ ih =>
    intro a ha
    rcases List.mem_cons.1 ha with rfl | ha
    · exact ⟨_, List.mem_cons_self .., hr⟩
    · obtain ⟨b, hb, h⟩ := ih a ha
      exact ⟨b, List.mem_cons_of_mem _ hb, h⟩

/-- The least-squares points of disturbed rays, without reference to an algorithm. -/
theorem c95_least_squares {l : List (Ray F ℝ × Ray F ℝ)} (h0 : ∀ x ∈ l, x.1.direction ≠ 0 ∧ x.2.direction ≠ 0)
    (h2 : 2 ≤ l.length) {a b : Ray F ℝ × Ray F ℝ} (ha : a ∈ l) (hb : b ∈ l)
    (hc : absCos a.1.direction b.1.direction < 1 - 1 / 10000000)
    (hc' : absCos a.2.direction b.2.direction < 1 - 1 / 10000000) {x x' : Vec}
    (hx : LeastSquares (l.map Prod.fst) x) (hx' : LeastSquares (l.map Prod.snd) x') :
    (1 - absCos a.2.direction b.2.direction) * distance x' x ≤
      (l.map fun y => distance y.2.center y.1.center +
        2 * distance ((len y.2.direction)⁻¹ • y.2.direction) ((len y.1.direction)⁻¹ • y.1.direction) *
          distance y.1.center x).sum := by
  have s1 : Spread (l.map Prod.fst) := spread_of_absCos (List.mem_map_of_mem ha) (List.mem_map_of_mem hb)
    (h0 a ha).1 (h0 b hb).1 hc
  have s2 : Spread (l.map Prod.snd) := spread_of_absCos (List.mem_map_of_mem ha) (List.mem_map_of_mem hb)
    (h0 a ha).2 (h0 b hb).2 hc'
  obtain ⟨pt, hpt⟩ := exSvd_ok (l.map Prod.fst) (by rwa [List.length_map])
  obtain ⟨pt', hpt'⟩ := exSvd_ok (l.map Prod.snd) (by rwa [List.length_map])
  have e1 := (c31_least_squares exSvd_contract (fun r hr => by
    obtain ⟨y, hy, rfl⟩ := List.mem_map.1 hr
    exact (h0 y hy).1) s1 hpt).2
  have e2 := (c31_least_squares exSvd_contract (fun r hr => by
    obtain ⟨y, hy, rfl⟩ := List.mem_map.1 hr
    exact (h0 y hy).2) s2 hpt').2
  have i1 : x = pt.data 0 := by
    by_contra hne
    exact absurd (hx (pt.data 0)) (not_le.2 (e1 x hne))
  have i2 : x' = pt'.data 0 := by
    by_contra hne
    exact absurd (hx' (pt'.data 0)) (not_le.2 (e2 x' hne))
  rw [i1, i2]
  exact c60_stability exSvd_contract h0 s1 s2 hpt hpt' ha hb (by linarith)

end

section
variable {Coords : Type} {lib' : Libm Format.b64}

/-- The values of two rays lie on one line. -/
def SameLineVal {R : Type} [Scalar R] (fl : Rounding R) (r r' : Ray Coords R) : Prop :=
  SameLine (vray fl r) (vray fl r')

/-- `rays'` is `rays` with other rays on the same lines, in any order. -/
def SameLines {R : Type} [Scalar R] (fl : Rounding R) (rays rays' : List (Ray Coords R)) : Prop :=
  ∃ m, List.Forall₂ (SameLineVal fl) rays m ∧ m.Perm rays'

theorem SameLines.least {R : Type} [Scalar R] {fl : Rounding R} {rays rays' : List (Ray Coords R)}
    (h : SameLines fl rays rays') {x : Vec} (hx : LeastSquares (rays.map (vray fl)) x) :
    LeastSquares (rays'.map (vray fl)) x := by
  obtain ⟨m, h1, h2⟩ := h
  have e : ∀ y, cost (rays'.map (vray fl)) y = cost (rays.map (vray fl)) y := by
    intro y
    rw [← cost_perm (h2.map _), cost_sameLine (List.forall₂_map_left_iff.2 (List.forall₂_map_right_iff.2 h1))]
  intro y
  rw [e, e]
  exact hx y

theorem SameLines.partner {R : Type} [Scalar R] {fl : Rounding R} {rays rays' : List (Ray Coords R)}
    (h : SameLines fl rays rays') {a : Ray Coords R} (ha : a ∈ rays) :
    ∃ a' ∈ rays', SameLine (vray fl a) (vray fl a') := by
  obtain ⟨m, h1, h2⟩ := h
  obtain ⟨a', ha', hs⟩ := forall₂_exists h1 a ha
  exact ⟨a', h2.mem_iff.1 ha', hs⟩

theorem SameLines.length {R : Type} [Scalar R] {fl : Rounding R} {rays rays' : List (Ray Coords R)}
    (h : SameLines fl rays rays') : rays'.length = rays.length := by
  obtain ⟨m, h1, h2⟩ := h
  rw [← h2.length_eq, h1.length_eq]

/-- C95 for `f64`: the same lines written with other rays, in another order, give a point within
`32 / 10000000 / κ * (M + |x|)` of the first, where `x` is the least-squares point of the lines. -/
theorem c95_f64_same_lines {lib : Libm Format.b64} {rays rays' : List (Ray Coords (F64 lib))} (h2 : 2 ≤ rays.length)
    (hs : SameLines (RustFloat.rounding .b64 lib) rays rays')
    (hr : ∀ r ∈ rays ++ rays', SafeRay (RustFloat.rounding .b64 lib) 500 r) {M : ℝ} (hM0 : 1 / 2 ^ 1022 ≤ M)
    (hM : ∀ r ∈ rays ++ rays', ∀ i, |(RustFloat.rounding .b64 lib).val (r.center i)| ≤ M)
    {a b : Ray Coords (F64 lib)} (ha : a ∈ rays) (hb : b ∈ rays) {κ : ℝ}
    (hκ : κ = 1 - absCos (vray (RustFloat.rounding .b64 lib) a).direction
      (vray (RustFloat.rounding .b64 lib) b).direction - 14 / 10000000 * rays.length)
    (hκ0 : 101 / 1000000000 < κ) {x : Vec} (hx : LeastSquares (rays.map (vray (RustFloat.rounding .b64 lib))) x) :
    ∃ pt pt', bestIntersectionOfRays (Svd3.svd : TrySvd (F64 lib')) rays = .ok pt ∧
      bestIntersectionOfRays (Svd3.svd : TrySvd (F64 lib')) rays' = .ok pt' ∧
      (∀ j, (RustFloat.rounding .b64 lib).isFinite (pt.data 0 j)) ∧
      (∀ j, (RustFloat.rounding .b64 lib).isFinite (pt'.data 0 j)) ∧
      distance (fun j => (RustFloat.rounding .b64 lib).val (pt'.data 0 j))
          (fun j => (RustFloat.rounding .b64 lib).val (pt.data 0 j)) ≤
        32 / 10000000 * rays.length / κ * (M + len x) := by
  obtain ⟨a', ha', sa⟩ := hs.partner ha
  obtain ⟨b', hb', sb⟩ := hs.partner hb
  obtain ⟨pt, p1, p2, p3⟩ := c83_f64_accuracy (lib' := lib') h2 (fun r hm => hr r (List.mem_append_left _ hm)) hM0
    (fun r hm => hM r (List.mem_append_left _ hm)) ha hb hκ hκ0 hx
  obtain ⟨pt', q1, q2, q3⟩ := c83_f64_accuracy (lib' := lib') (hs.length.symm ▸ h2)
    (fun r hm => hr r (List.mem_append_right _ hm)) hM0
    (fun r hm => hM r (List.mem_append_right _ hm)) ha' hb'
    (by rw [absCos_sameLine sa sb, hs.length, hκ]) hκ0 (hs.least hx)
  refine ⟨pt, pt', p1, q1, p2, q2, ?_⟩
  have h5 := distance_triangle (fun j => (RustFloat.rounding .b64 lib).val (pt'.data 0 j)) x
    (fun j => (RustFloat.rounding .b64 lib).val (pt.data 0 j))
  rw [hs.length] at q3
  rw [distance, len_sub_comm] at p3
  refine h5.trans ((add_le_add q3 p3).trans (le_of_eq ?_))
  ring

/-- C95 for `f64`: rays `r` that become `r'`, for the pairs `(r, r')` of `l`.  `B` is the bound of C60 on how far the
least-squares point moves. -/
theorem c95_f64_stability {lib : Libm Format.b64} {l : List (Ray Coords (F64 lib) × Ray Coords (F64 lib))}
    (h2 : 2 ≤ l.length)
    (hr : ∀ r ∈ l, SafeRay (RustFloat.rounding .b64 lib) 500 r.1 ∧ SafeRay (RustFloat.rounding .b64 lib) 500 r.2)
    {M : ℝ} (hM0 : 1 / 2 ^ 1022 ≤ M)
    (hM : ∀ r ∈ l, ∀ i, |(RustFloat.rounding .b64 lib).val (r.1.center i)| ≤ M ∧
      |(RustFloat.rounding .b64 lib).val (r.2.center i)| ≤ M)
    {a b : Ray Coords (F64 lib) × Ray Coords (F64 lib)} (ha : a ∈ l) (hb : b ∈ l) {c c' κ κ' B : ℝ}
    (hc : c = absCos (vray (RustFloat.rounding .b64 lib) a.1).direction
      (vray (RustFloat.rounding .b64 lib) b.1).direction)
    (hc' : c' = absCos (vray (RustFloat.rounding .b64 lib) a.2).direction
      (vray (RustFloat.rounding .b64 lib) b.2).direction)
    (hκ : κ = 1 - c - 14 / 10000000 * l.length) (hκ' : κ' = 1 - c' - 14 / 10000000 * l.length)
    (hκ0 : 101 / 1000000000 < κ) (hκ0' : 101 / 1000000000 < κ') {x : Vec}
    (hx : LeastSquares (l.map fun r => vray (RustFloat.rounding .b64 lib) r.1) x)
    (hB : B = (l.map fun r =>
      distance (vray (RustFloat.rounding .b64 lib) r.2).center (vray (RustFloat.rounding .b64 lib) r.1).center +
        2 * distance ((len (vray (RustFloat.rounding .b64 lib) r.2).direction)⁻¹ •
            (vray (RustFloat.rounding .b64 lib) r.2).direction)
          ((len (vray (RustFloat.rounding .b64 lib) r.1).direction)⁻¹ •
            (vray (RustFloat.rounding .b64 lib) r.1).direction) *
          distance (vray (RustFloat.rounding .b64 lib) r.1).center x).sum / (1 - c')) :
    ∃ pt pt', bestIntersectionOfRays (Svd3.svd : TrySvd (F64 lib')) (l.map Prod.fst) = .ok pt ∧
      bestIntersectionOfRays (Svd3.svd : TrySvd (F64 lib')) (l.map Prod.snd) = .ok pt' ∧
      (∀ j, (RustFloat.rounding .b64 lib).isFinite (pt.data 0 j)) ∧
      (∀ j, (RustFloat.rounding .b64 lib).isFinite (pt'.data 0 j)) ∧
      distance (fun j => (RustFloat.rounding .b64 lib).val (pt'.data 0 j))
          (fun j => (RustFloat.rounding .b64 lib).val (pt.data 0 j)) ≤
        B + 16 / 10000000 * l.length / κ * (M + len x) + 16 / 10000000 * l.length / κ' * (M + (len x + B)) := by
  set fl := RustFloat.rounding .b64 lib with hfl
  have hN0 : (0 : ℝ) ≤ l.length := Nat.cast_nonneg _
  have r1 : ∀ r ∈ l.map Prod.fst, SafeRay fl 500 r := fun r hm => by
    obtain ⟨y, hy, rfl⟩ := List.mem_map.1 hm
    exact (hr y hy).1
  have r2 : ∀ r ∈ l.map Prod.snd, SafeRay fl 500 r := fun r hm => by
    obtain ⟨y, hy, rfl⟩ := List.mem_map.1 hm
    exact (hr y hy).2
  have e1 : (l.map Prod.fst).map (vray fl) = (l.map fun y => (vray fl y.1, vray fl y.2)).map Prod.fst := by
    simp [List.map_map, Function.comp_def]
  have e2 : (l.map Prod.snd).map (vray fl) = (l.map fun y => (vray fl y.1, vray fl y.2)).map Prod.snd := by
    simp [List.map_map, Function.comp_def]
  have e3 : (l.map fun r => vray fl r.1) = (l.map Prod.fst).map (vray fl) := by
    simp [List.map_map, Function.comp_def]
  rw [e3] at hx
  obtain ⟨x', hx'⟩ := leastSquares_exists (vray_ne r2)
  obtain ⟨pt, p1, p2, p3⟩ := c83_f64_accuracy (lib' := lib') (by rwa [List.length_map]) r1 hM0
    (fun r hm => by
      obtain ⟨y, hy, rfl⟩ := List.mem_map.1 hm
      exact fun i => (hM y hy i).1) (List.mem_map_of_mem ha) (List.mem_map_of_mem hb)
    (by rw [List.length_map, ← hc, hκ]) hκ0 hx
  obtain ⟨pt', q1, q2, q3⟩ := c83_f64_accuracy (lib' := lib') (by rwa [List.length_map]) r2 hM0
    (fun r hm => by
      obtain ⟨y, hy, rfl⟩ := List.mem_map.1 hm
      exact fun i => (hM y hy i).2) (List.mem_map_of_mem ha) (List.mem_map_of_mem hb)
    (by rw [List.length_map, ← hc', hκ']) hκ0' hx'
  have n1 := vray_ne r1
  have n2 := vray_ne r2
  have h5 := c95_least_squares (l := l.map fun y => (vray fl y.1, vray fl y.2))
    (fun y hy => by
      obtain ⟨z, hz, rfl⟩ := List.mem_map.1 hy
      exact ⟨n1 _ (List.mem_map_of_mem (List.mem_map_of_mem hz)), n2 _ (List.mem_map_of_mem (List.mem_map_of_mem hz))⟩)
    (by rwa [List.length_map]) (List.mem_map_of_mem ha) (List.mem_map_of_mem hb)
    (by rw [← hc]; linarith) (by rw [← hc']; linarith) (e1 ▸ hx) (e2 ▸ hx')
  rw [List.map_map] at h5
  have h6 : distance x' x ≤ B := by
    rw [hB, le_div_iff₀ (by linarith), mul_comm, hc']
    exact h5
  refine ⟨pt, pt', p1, q1, p2, q2, ?_⟩
  have h7 := distance_triangle (fun j => fl.val (pt'.data 0 j)) x' (fun j => fl.val (pt.data 0 j))
  have h8 := distance_triangle x' x (fun j => fl.val (pt.data 0 j))
  rw [List.length_map] at p3 q3
  rw [distance, len_sub_comm] at p3
  have h9 := mul_le_mul_of_nonneg_left (add_le_add_right ((len_le_distance x' x).trans
    (by linarith : _ ≤ len x + B)) M)
    (div_nonneg (mul_nonneg (by norm_num : (0 : ℝ) ≤ 16 / 10000000) hN0) (by linarith : 0 ≤ κ'))
  rw [← distance] at p3
  linarith

/-- C95 for `f32`: the same lines written with other rays, in another order, give a point within
`128 / 1000000 / κ * (M + |x|)` of the first, where `x` is the least-squares point of the lines. -/
theorem c95_f32_same_lines {lib : Libm Format.b32} {rays rays' : List (Ray Coords (F32 lib))} (h2 : 2 ≤ rays.length)
    (hs : SameLines (RustFloat.rounding .b32 lib) rays rays')
    (hr : ∀ r ∈ rays ++ rays', SafeRay (RustFloat.rounding .b32 lib) 60 r) {M : ℝ} (hM0 : 1 / 2 ^ 126 ≤ M)
    (hM : ∀ r ∈ rays ++ rays', ∀ i, |(RustFloat.rounding .b32 lib).val (r.center i)| ≤ M)
    {a b : Ray Coords (F32 lib)} (ha : a ∈ rays) (hb : b ∈ rays) {κ : ℝ}
    (hκ : κ = 1 - absCos (vray (RustFloat.rounding .b32 lib) a).direction
      (vray (RustFloat.rounding .b32 lib) b).direction - 71 / 10000000 * rays.length)
    (hκ0 : 101 / 1000000000 < κ) {x : Vec} (hx : LeastSquares (rays.map (vray (RustFloat.rounding .b32 lib))) x) :
    ∃ pt pt', bestIntersectionOfRays (Svd3.svd : TrySvd (F64 lib')) rays = .ok pt ∧
      bestIntersectionOfRays (Svd3.svd : TrySvd (F64 lib')) rays' = .ok pt' ∧
      (∀ j, (RustFloat.rounding .b32 lib).isFinite (pt.data 0 j)) ∧
      (∀ j, (RustFloat.rounding .b32 lib).isFinite (pt'.data 0 j)) ∧
      distance (fun j => (RustFloat.rounding .b32 lib).val (pt'.data 0 j))
          (fun j => (RustFloat.rounding .b32 lib).val (pt.data 0 j)) ≤
        128 / 1000000 * rays.length / κ * (M + len x) := by
  obtain ⟨a', ha', sa⟩ := hs.partner ha
  obtain ⟨b', hb', sb⟩ := hs.partner hb
  obtain ⟨pt, p1, p2, p3⟩ := c83_f32_accuracy (lib' := lib') h2 (fun r hm => hr r (List.mem_append_left _ hm)) hM0
    (fun r hm => hM r (List.mem_append_left _ hm)) ha hb hκ hκ0 hx
  obtain ⟨pt', q1, q2, q3⟩ := c83_f32_accuracy (lib' := lib') (hs.length.symm ▸ h2)
    (fun r hm => hr r (List.mem_append_right _ hm)) hM0
    (fun r hm => hM r (List.mem_append_right _ hm)) ha' hb'
    (by rw [absCos_sameLine sa sb, hs.length, hκ]) hκ0 (hs.least hx)
  refine ⟨pt, pt', p1, q1, p2, q2, ?_⟩
  have h5 := distance_triangle (fun j => (RustFloat.rounding .b32 lib).val (pt'.data 0 j)) x
    (fun j => (RustFloat.rounding .b32 lib).val (pt.data 0 j))
  rw [hs.length] at q3
  rw [distance, len_sub_comm] at p3
  refine h5.trans ((add_le_add q3 p3).trans (le_of_eq ?_))
  ring

/-- C95 for `f32`: rays `r` that become `r'`, for the pairs `(r, r')` of `l`.  `B` is the bound of C60 on how far the
least-squares point moves. -/
theorem c95_f32_stability {lib : Libm Format.b32} {l : List (Ray Coords (F32 lib) × Ray Coords (F32 lib))}
    (h2 : 2 ≤ l.length)
    (hr : ∀ r ∈ l, SafeRay (RustFloat.rounding .b32 lib) 60 r.1 ∧ SafeRay (RustFloat.rounding .b32 lib) 60 r.2)
    {M : ℝ} (hM0 : 1 / 2 ^ 126 ≤ M)
    (hM : ∀ r ∈ l, ∀ i, |(RustFloat.rounding .b32 lib).val (r.1.center i)| ≤ M ∧
      |(RustFloat.rounding .b32 lib).val (r.2.center i)| ≤ M)
    {a b : Ray Coords (F32 lib) × Ray Coords (F32 lib)} (ha : a ∈ l) (hb : b ∈ l) {c c' κ κ' B : ℝ}
    (hc : c = absCos (vray (RustFloat.rounding .b32 lib) a.1).direction
      (vray (RustFloat.rounding .b32 lib) b.1).direction)
    (hc' : c' = absCos (vray (RustFloat.rounding .b32 lib) a.2).direction
      (vray (RustFloat.rounding .b32 lib) b.2).direction)
    (hκ : κ = 1 - c - 71 / 10000000 * l.length) (hκ' : κ' = 1 - c' - 71 / 10000000 * l.length)
    (hκ0 : 101 / 1000000000 < κ) (hκ0' : 101 / 1000000000 < κ') {x : Vec}
    (hx : LeastSquares (l.map fun r => vray (RustFloat.rounding .b32 lib) r.1) x)
    (hB : B = (l.map fun r =>
      distance (vray (RustFloat.rounding .b32 lib) r.2).center (vray (RustFloat.rounding .b32 lib) r.1).center +
        2 * distance ((len (vray (RustFloat.rounding .b32 lib) r.2).direction)⁻¹ •
            (vray (RustFloat.rounding .b32 lib) r.2).direction)
          ((len (vray (RustFloat.rounding .b32 lib) r.1).direction)⁻¹ •
            (vray (RustFloat.rounding .b32 lib) r.1).direction) *
          distance (vray (RustFloat.rounding .b32 lib) r.1).center x).sum / (1 - c')) :
    ∃ pt pt', bestIntersectionOfRays (Svd3.svd : TrySvd (F64 lib')) (l.map Prod.fst) = .ok pt ∧
      bestIntersectionOfRays (Svd3.svd : TrySvd (F64 lib')) (l.map Prod.snd) = .ok pt' ∧
      (∀ j, (RustFloat.rounding .b32 lib).isFinite (pt.data 0 j)) ∧
      (∀ j, (RustFloat.rounding .b32 lib).isFinite (pt'.data 0 j)) ∧
      distance (fun j => (RustFloat.rounding .b32 lib).val (pt'.data 0 j))
          (fun j => (RustFloat.rounding .b32 lib).val (pt.data 0 j)) ≤
        B + 64 / 1000000 * l.length / κ * (M + len x) + 64 / 1000000 * l.length / κ' * (M + (len x + B)) := by
  set fl := RustFloat.rounding .b32 lib with hfl
  have hN0 : (0 : ℝ) ≤ l.length := Nat.cast_nonneg _
  have r1 : ∀ r ∈ l.map Prod.fst, SafeRay fl 60 r := fun r hm => by
    obtain ⟨y, hy, rfl⟩ := List.mem_map.1 hm
    exact (hr y hy).1
  have r2 : ∀ r ∈ l.map Prod.snd, SafeRay fl 60 r := fun r hm => by
    obtain ⟨y, hy, rfl⟩ := List.mem_map.1 hm
    exact (hr y hy).2
  have e1 : (l.map Prod.fst).map (vray fl) = (l.map fun y => (vray fl y.1, vray fl y.2)).map Prod.fst := by
    simp [List.map_map, Function.comp_def]
  have e2 : (l.map Prod.snd).map (vray fl) = (l.map fun y => (vray fl y.1, vray fl y.2)).map Prod.snd := by
    simp [List.map_map, Function.comp_def]
  have e3 : (l.map fun r => vray fl r.1) = (l.map Prod.fst).map (vray fl) := by
    simp [List.map_map, Function.comp_def]
  rw [e3] at hx
  obtain ⟨x', hx'⟩ := leastSquares_exists (vray_ne r2)
  obtain ⟨pt, p1, p2, p3⟩ := c83_f32_accuracy (lib' := lib') (by rwa [List.length_map]) r1 hM0
    (fun r hm => by
      obtain ⟨y, hy, rfl⟩ := List.mem_map.1 hm
      exact fun i => (hM y hy i).1) (List.mem_map_of_mem ha) (List.mem_map_of_mem hb)
    (by rw [List.length_map, ← hc, hκ]) hκ0 hx
  obtain ⟨pt', q1, q2, q3⟩ := c83_f32_accuracy (lib' := lib') (by rwa [List.length_map]) r2 hM0
    (fun r hm => by
      obtain ⟨y, hy, rfl⟩ := List.mem_map.1 hm
      exact fun i => (hM y hy i).2) (List.mem_map_of_mem ha) (List.mem_map_of_mem hb)
    (by rw [List.length_map, ← hc', hκ']) hκ0' hx'
  have n1 := vray_ne r1
  have n2 := vray_ne r2
  have h5 := c95_least_squares (l := l.map fun y => (vray fl y.1, vray fl y.2))
    (fun y hy => by
      obtain ⟨z, hz, rfl⟩ := List.mem_map.1 hy
      exact ⟨n1 _ (List.mem_map_of_mem (List.mem_map_of_mem hz)), n2 _ (List.mem_map_of_mem (List.mem_map_of_mem hz))⟩)
    (by rwa [List.length_map]) (List.mem_map_of_mem ha) (List.mem_map_of_mem hb)
    (by rw [← hc]; linarith) (by rw [← hc']; linarith) (e1 ▸ hx) (e2 ▸ hx')
  rw [List.map_map] at h5
  have h6 : distance x' x ≤ B := by
    rw [hB, le_div_iff₀ (by linarith), mul_comm, hc']
    exact h5
  refine ⟨pt, pt', p1, q1, p2, q2, ?_⟩
  have h7 := distance_triangle (fun j => fl.val (pt'.data 0 j)) x' (fun j => fl.val (pt.data 0 j))
  have h8 := distance_triangle x' x (fun j => fl.val (pt.data 0 j))
  rw [List.length_map] at p3 q3
  rw [distance, len_sub_comm] at p3
  have h9 := mul_le_mul_of_nonneg_left (add_le_add_right ((len_le_distance x' x).trans
    (by linarith : _ ≤ len x + B)) M)
    (div_nonneg (mul_nonneg (by norm_num : (0 : ℝ) ≤ 64 / 1000000) hN0) (by linarith : 0 ≤ κ'))
  rw [← distance] at p3
  linarith

end

/-! ### Non-vacuity -/

theorem ray_of_nat (f : Format) (hf : 12 < 2 ^ f.p) (hω : f.ω ≤ 1 / 3) (lib : Libm f) {k : ℕ} (hk : 4 ≤ k)
    (c d : Fin 3 → ℕ) (hc : ∀ i, c i ≤ 12) (hd : ∀ i, d i ≤ 12) (hne : ∃ i, d i ≠ 0) :
    ∃ a : Ray WorldFrame (RustFloat f lib),
      vray (RustFloat.rounding f lib) a = ⟨fun i => c i, fun i => d i⟩ ∧ SafeRay (RustFloat.rounding f lib) k a := by
  set fl := RustFloat.rounding f lib with hfl
  have hw : ∀ k, (h : k ≤ 12) → fl.isFinite (Flt.whole f k (lt_of_le_of_lt h hf)) ∧
      fl.val (Flt.whole f k (lt_of_le_of_lt h hf)) = k := by
    intro k h
    refine ⟨trivial, ?_⟩
    show Flt.val (f := f) (Flt.whole f k (lt_of_le_of_lt h hf)) = _
    simp [Flt.whole, Flt.val]
  have hr : ∀ k', (h : k' ≤ 12) → InRange fl k (Flt.whole f k' (lt_of_le_of_lt h hf)) := by
    intro k' h
    refine ⟨(hw k' h).1, ?_⟩
    rw [(hw k' h).2, Nat.abs_cast]
    have h1 : (2 : ℝ) ^ 4 ≤ 2 ^ k := pow_le_pow_right₀ (by norm_num) hk
    have h2 : (k' : ℝ) ≤ 12 := by exact_mod_cast h
    norm_num at h1
    linarith
  have hω' : fl.ω ≤ 1 / 3 := hω
  have ed : (fun i => fl.val (Flt.whole f (d i) (lt_of_le_of_lt (hd i) hf))) = fun i => (d i : ℝ) :=
    funext fun i => (hw _ (hd i)).2
  refine ⟨⟨fun i => Flt.whole f (c i) (lt_of_le_of_lt (hc i) hf),
    fun i => Flt.whole f (d i) (lt_of_le_of_lt (hd i) hf)⟩, ?_, ?_⟩
  · exact congrArg₂ Ray.mk (funext fun i => (hw _ (hc i)).2) ed
  · obtain ⟨i, hi⟩ := hne
    refine ⟨fun i => hr _ (hc i), fun i => hr _ (hd i), ⟨i, ?_⟩, ?_⟩
    · show fl.val (Flt.whole f (d i) (lt_of_le_of_lt (hd i) hf)) ≠ 0
      rw [(hw _ (hd i)).2]
      exact_mod_cast hi
    · refine le_trans (by linarith : 3 * fl.ω ≤ 1) ?_
      show 1 ≤ len (fun i => fl.val (Flt.whole f (d i) (lt_of_le_of_lt (hd i) hf))) ^ 2
      rw [ed, len_sq, vec3_dotProduct]
      have h : 1 ≤ d 0 * d 0 + d 1 * d 1 + d 2 * d 2 := by
        have h1 := Nat.mul_self_le_mul_self (Nat.one_le_iff_ne_zero.2 hi)
        fin_cases i <;> simp only [Fin.zero_eta, Fin.mk_one, Fin.reduceFinMk] at h1 <;> omega
      exact_mod_cast h

theorem ω_b64_third : Format.b64.ω ≤ 1 / 3 := by
  rw [Format.ω_b64']
  refine one_div_le_one_div_of_le (by norm_num) ?_
  exact le_trans (by norm_num) (pow_le_pow_right₀ (by norm_num) (show 2 ≤ 1022 by norm_num) : (2 : ℝ) ^ 2 ≤ _)

theorem meet_witness : LeastSquares
    [(⟨![0, 0, 0], ![3, 4, 12]⟩ : Ray WorldFrame ℝ), ⟨![3, 4, 0], ![0, 0, 1]⟩] ![3, 4, 12] := by
  have h := cost_eq_zero (rays := [(⟨![0, 0, 0], ![3, 4, 12]⟩ : Ray WorldFrame ℝ), ⟨![3, 4, 0], ![0, 0, 1]⟩])
    (x := ![3, 4, 12]) (by
      simp only [List.mem_cons, List.not_mem_nil, or_false, forall_eq_or_imp, forall_eq]
      refine ⟨⟨1, ?_⟩, ⟨12, ?_⟩⟩ <;> funext i <;> fin_cases i <;> simp)
  intro y
  rw [h]
  exact cost_nonneg _ y

/-- Non-vacuity of C95 for `f64`: two lines through `(3, 4, 12)`, then the same lines in the other order, from other
origins and with other directions. -/
example (lib lib' : Libm Format.b64) : ∃ (rays rays' : List (Ray WorldFrame (F64 lib))) (pt pt' : _),
    rays.map (vray (RustFloat.rounding .b64 lib)) = [⟨![0, 0, 0], ![3, 4, 12]⟩, ⟨![3, 4, 0], ![0, 0, 1]⟩] ∧
    rays'.map (vray (RustFloat.rounding .b64 lib)) = [⟨![3, 4, 7], ![0, 0, 5]⟩, ⟨![3, 4, 12], ![3, 4, 12]⟩] ∧
    bestIntersectionOfRays (Svd3.svd : TrySvd (F64 lib')) rays = .ok pt ∧
    bestIntersectionOfRays (Svd3.svd : TrySvd (F64 lib')) rays' = .ok pt' ∧
    distance (fun j => (RustFloat.rounding .b64 lib).val (pt'.data 0 j))
      (fun j => (RustFloat.rounding .b64 lib).val (pt.data 0 j)) ≤ 1 / 100 := by
  have w := fun c d => ray_of_nat .b64 (by decide) ω_b64_third lib (k := 500) (by norm_num) c d
  obtain ⟨a, ha, sa⟩ := w ![0, 0, 0] ![3, 4, 12] (by decide) (by decide) ⟨0, by decide⟩
  obtain ⟨b, hb, sb⟩ := w ![3, 4, 0] ![0, 0, 1] (by decide) (by decide) ⟨2, by decide⟩
  obtain ⟨a', ha', sa'⟩ := w ![3, 4, 12] ![3, 4, 12] (by decide) (by decide) ⟨0, by decide⟩
  obtain ⟨b', hb', sb'⟩ := w ![3, 4, 7] ![0, 0, 5] (by decide) (by decide) ⟨2, by decide⟩
  have v : ∀ x y z : ℕ, (fun i => ((![x, y, z] : Fin 3 → ℕ) i : ℝ)) = ![(x : ℝ), y, z] := by
    intro x y z; funext i; fin_cases i <;> rfl
  simp only [v, Nat.cast_zero, Nat.cast_one, Nat.cast_ofNat] at ha hb ha' hb'
  have la : SameLineVal (RustFloat.rounding .b64 lib) a a' := by
    rw [SameLineVal, ha, ha']
    refine ⟨fun h => by simpa using congrFun h 0, fun h => by simpa using congrFun h 0, ?_⟩
    ext y
    constructor <;> rintro ⟨t, rfl⟩
    · exact ⟨t - 1, by funext i; fin_cases i <;> simp <;> ring⟩
    · exact ⟨t + 1, by funext i; fin_cases i <;> simp <;> ring⟩
  have lb : SameLineVal (RustFloat.rounding .b64 lib) b b' := by
    rw [SameLineVal, hb, hb']
    refine ⟨fun h => by simpa using congrFun h 2, fun h => by simpa using congrFun h 2, ?_⟩
    ext y
    constructor <;> rintro ⟨t, rfl⟩
    · exact ⟨(t - 7) / 5, by funext i; fin_cases i <;> simp⟩
    · exact ⟨5 * t + 7, by funext i; fin_cases i <;> simp; ring⟩
  obtain ⟨pt, pt', h1, h2, -, -, h3⟩ := c95_f64_same_lines (lib' := lib') (rays := [a, b]) (rays' := [b', a'])
    (M := 12) le_rfl ⟨[a', b'], .cons la (.cons lb .nil), List.Perm.swap ..⟩
    (by
      simp only [List.cons_append, List.nil_append, List.mem_cons, List.not_mem_nil, or_false, forall_eq_or_imp,
        forall_eq]
      exact ⟨sa, sb, sb', sa'⟩)
    (by
      refine le_trans (one_div_le_one_div_of_le (by norm_num) (one_le_pow₀ (by norm_num) : (1 : ℝ) ≤ _)) (by norm_num))
    (by
      have ea := fun i => congrFun (congrArg Ray.center ha) i
      have eb := fun i => congrFun (congrArg Ray.center hb) i
      have ea' := fun i => congrFun (congrArg Ray.center ha') i
      have eb' := fun i => congrFun (congrArg Ray.center hb') i
      simp only [vray, vvec] at ea eb ea' eb'
      simp only [List.cons_append, List.nil_append, List.mem_cons, List.not_mem_nil, or_false, forall_eq_or_imp,
        forall_eq]
      refine ⟨fun i => ?_, fun i => ?_, fun i => ?_, fun i => ?_⟩
      · rw [ea]; fin_cases i <;> simp
      · rw [eb]; fin_cases i <;> norm_num
      · rw [eb']; fin_cases i <;> norm_num
      · rw [ea']; fin_cases i <;> norm_num)
    (List.mem_cons_self ..) (by simp : b ∈ [a, b]) rfl
    (by rw [ha, hb, absCos_witness]; norm_num) (x := ![3, 4, 12])
    (by
      simp only [List.map_cons, List.map_nil, ha, hb]
      exact meet_witness)
  refine ⟨[a, b], [b', a'], pt, pt', by simp only [List.map_cons, List.map_nil, ha, hb],
    by simp only [List.map_cons, List.map_nil, ha', hb'], h1, h2, h3.trans ?_⟩
  rw [ha, hb, absCos_witness, len_witness]
  norm_num

/-- Non-vacuity of C95 for `f64`: the second of the two rays is moved by 1, from `(3, 4, 0)` to `(3, 5, 0)`. -/
example (lib lib' : Libm Format.b64) : ∃ (l : List (Ray WorldFrame (F64 lib) × Ray WorldFrame (F64 lib))) (pt pt' : _),
    l.map (fun r => (vray (RustFloat.rounding .b64 lib) r.1, vray (RustFloat.rounding .b64 lib) r.2)) =
      [(⟨![0, 0, 0], ![3, 4, 12]⟩, ⟨![0, 0, 0], ![3, 4, 12]⟩), (⟨![3, 4, 0], ![0, 0, 1]⟩, ⟨![3, 5, 0], ![0, 0, 1]⟩)] ∧
    bestIntersectionOfRays (Svd3.svd : TrySvd (F64 lib')) (l.map Prod.fst) = .ok pt ∧
    bestIntersectionOfRays (Svd3.svd : TrySvd (F64 lib')) (l.map Prod.snd) = .ok pt' ∧
    distance (fun j => (RustFloat.rounding .b64 lib).val (pt'.data 0 j))
      (fun j => (RustFloat.rounding .b64 lib).val (pt.data 0 j)) ≤ 13 + 1 / 100 := by
  have w := fun c d => ray_of_nat .b64 (by decide) ω_b64_third lib (k := 500) (by norm_num) c d
  obtain ⟨a, ha, sa⟩ := w ![0, 0, 0] ![3, 4, 12] (by decide) (by decide) ⟨0, by decide⟩
  obtain ⟨b, hb, sb⟩ := w ![3, 4, 0] ![0, 0, 1] (by decide) (by decide) ⟨2, by decide⟩
  obtain ⟨b', hb', sb'⟩ := w ![3, 5, 0] ![0, 0, 1] (by decide) (by decide) ⟨2, by decide⟩
  have v : ∀ x y z : ℕ, (fun i => ((![x, y, z] : Fin 3 → ℕ) i : ℝ)) = ![(x : ℝ), y, z] := by
    intro x y z; funext i; fin_cases i <;> rfl
  simp only [v, Nat.cast_zero, Nat.cast_one, Nat.cast_ofNat] at ha hb hb'
  obtain ⟨pt, pt', h1, h2, -, -, h3⟩ := c95_f64_stability (lib' := lib') (l := [(a, a), (b, b')])
    (M := 12) le_rfl
    (by
      simp only [List.mem_cons, List.not_mem_nil, or_false, forall_eq_or_imp, forall_eq]
      exact ⟨⟨sa, sa⟩, sb, sb'⟩)
    (by
      refine le_trans (one_div_le_one_div_of_le (by norm_num) (one_le_pow₀ (by norm_num) : (1 : ℝ) ≤ _)) (by norm_num))
    (by
      have ea := fun i => congrFun (congrArg Ray.center ha) i
      have eb := fun i => congrFun (congrArg Ray.center hb) i
      have eb' := fun i => congrFun (congrArg Ray.center hb') i
      simp only [vray, vvec] at ea eb eb'
      simp only [List.mem_cons, List.not_mem_nil, or_false, forall_eq_or_imp, forall_eq]
      refine ⟨fun i => ⟨?_, ?_⟩, fun i => ⟨?_, ?_⟩⟩
      · rw [ea]; fin_cases i <;> simp
      · rw [ea]; fin_cases i <;> simp
      · rw [eb]; fin_cases i <;> norm_num
      · rw [eb']; fin_cases i <;> norm_num)
    (List.mem_cons_self ..) (by simp : (b, b') ∈ [(a, a), (b, b')]) rfl rfl rfl rfl
    (by rw [ha, hb, absCos_witness]; norm_num) (by rw [ha, hb', absCos_witness]; norm_num) (x := ![3, 4, 12])
    (by
      simp only [List.map_cons, List.map_nil, ha, hb]
      exact meet_witness) rfl
  refine ⟨_, pt, pt', by simp only [List.map_cons, List.map_nil, ha, hb, hb'], h1, h2, h3.trans ?_⟩
  have d1 : distance ![(3 : ℝ), 5, 0] ![3, 4, 0] = 1 := by
    have e : (![3, 5, 0] - ![3, 4, 0] : Vec) = ![0, 1, 0] := by
      funext i; fin_cases i <;> norm_num
    rw [distance, e, len_eq, vec3_dotProduct']
    norm_num
  have d0 : ∀ v : Vec, distance v v = 0 := fun v => by rw [distance, sub_self, len_eq, zero_dotProduct, Real.sqrt_zero]
  simp only [List.map_cons, List.map_nil, ha, hb, hb', absCos_witness, len_witness, d1, d0]
  norm_num

end CamGeom
