import Verif.Props.RenderCube
import Verif.Props.FloatExact
import Verif.Props.FloatCamera
import Verif.Props.RoundingPerspective
import Verif.Lemmas.FloatRange

/-!
# C98: the wireframe example in `f64`

`render_wireframe` computes in `f64`; C71 describes its picture in exact arithmetic.  Here: how far the `f64`
picture is from the exact one, and what vertices without a finite image do to it.
-/

namespace CamGeom
open Spec

/-- `f64::INFINITY`, `f64::min` and `f64::max` as documented: a NaN is ignored, otherwise one of the operands is
returned that is not greater (less) than the other.  Which zero is returned for `+0` and `-0` is left open. -/
structure Spec.IsF64Order {f : Format} (o : F64Order (Flt f)) : Prop where
  inf : o.inf = .inf false
  min_nan_left : ∀ y, o.min .nan y = y
  min_nan_right : ∀ x, o.min x .nan = x
  min_or : ∀ x y, o.min x y = x ∨ o.min x y = y
  min_left : ∀ x y, Flt.lt x (o.min x y) = false
  min_right : ∀ x y, Flt.lt y (o.min x y) = false
  max_nan_left : ∀ y, o.max .nan y = y
  max_nan_right : ∀ x, o.max x .nan = x
  max_or : ∀ x y, o.max x y = x ∨ o.max x y = y
  max_left : ∀ x y, Flt.lt (o.max x y) x = false
  max_right : ∀ x y, Flt.lt (o.max x y) y = false

/-- The picture whose vertex `v` is drawn at `(X v, Y v)`. -/
def Spec.drawing {F : Type} {n : ℕ} (X Y : Fin n → F) (width radius : F) (edges : List (Fin n × Fin n)) :
    List (SvgElem F) :=
  edges.flatMap fun e =>
    [.line (X e.1) (X e.2) (Y e.1) (Y e.2) width, .circle (X e.1) (Y e.1) radius, .circle (X e.2) (Y e.2) radius]

section fold
variable {f : Format}

/-- `a ≤ b` or one of them is NaN. -/
def NotAbove (a b : Flt f) : Prop := Flt.lt b a = false

theorem NotAbove.trans {a b c : Flt f} (hb : b ≠ .nan) (h : NotAbove a b) (k : NotAbove b c) : NotAbove a c := by
  unfold NotAbove at *
  cases a <;> cases b <;> cases c <;> simp_all [Flt.lt]
  exact h.trans k

theorem foldl_extreme {α F : Type} {nan : F} {le : F → F → Prop} {op : F → F → F}
    (refl : ∀ a, le a a) (tr : ∀ {a b c : F}, b ≠ nan → le a b → le b c → le a c)
    (op_nan : ∀ x, op x nan = x) (op_or : ∀ x y, op x y = x ∨ op x y = y)
    (op_left : ∀ x y, le (op x y) x) (op_right : ∀ x y, le (op x y) y)
    (g : α → F) (l : List α) : ∀ m : F, m ≠ nan →
    l.foldl (fun m v => op m (g v)) m ≠ nan ∧ le (l.foldl (fun m v => op m (g v)) m) m ∧
    (∀ v ∈ l, g v ≠ nan → le (l.foldl (fun m v => op m (g v)) m) (g v)) ∧
    (l.foldl (fun m v => op m (g v)) m = m ∨ ∃ v ∈ l, l.foldl (fun m v => op m (g v)) m = g v) := by
  induction l with
  | nil => intro m hm; simpa using ⟨hm, refl m⟩
  | cons a l ih =>
    intro m hm
    have hn : op m (g a) ≠ nan := by
      by_cases h : g a = nan
      · rw [h, op_nan]; exact hm
      · rcases op_or m (g a) with e | e <;> rw [e] <;> assumption
    obtain ⟨h1, h2, h3, h4⟩ := ih _ hn
    simp only [List.foldl_cons]
    refine ⟨h1, tr hn h2 (op_left _ _), ?_, ?_⟩
    · intro v hv hvn
      rcases List.mem_cons.1 hv with rfl | hv
      · exact tr hn h2 (op_right _ _)
      · exact h3 v hv hvn
    · rcases h4 with h4 | ⟨v, hv, h4⟩
      · rcases op_or m (g a) with e | e
        · left; rw [h4, e]
        · right; exact ⟨a, List.mem_cons_self, by rw [h4, e]⟩
      · right; exact ⟨v, List.mem_cons_of_mem _ hv, h4⟩

theorem NotAbove.refl (a : Flt f) : NotAbove a a := by
  unfold NotAbove
  cases a with
  | num => simp [Flt.lt]
  | inf b => cases b <;> simp [Flt.lt]
  | nan => rfl

variable {o : F64Order (Flt f)} (ho : IsF64Order o) {α : Type} (g : α → Flt f) (l : List α)
include ho

theorem fold_min :
    l.foldl (fun m v => o.min m (g v)) (.inf false) ≠ .nan ∧
    (∀ v ∈ l, g v ≠ .nan → NotAbove (l.foldl (fun m v => o.min m (g v)) (.inf false)) (g v)) ∧
    (l.foldl (fun m v => o.min m (g v)) (.inf false) = .inf false ∨
      ∃ v ∈ l, l.foldl (fun m v => o.min m (g v)) (.inf false) = g v) := by
  obtain ⟨h1, -, h3, h4⟩ := foldl_extreme (nan := Flt.nan) (le := NotAbove) (op := o.min) NotAbove.refl
    (fun hb h k => h.trans hb k) ho.min_nan_right ho.min_or ho.min_left ho.min_right g l (.inf false) nofun
  exact ⟨h1, h3, h4⟩

theorem fold_max :
    l.foldl (fun m v => o.max m (g v)) (.inf true) ≠ .nan ∧
    (∀ v ∈ l, g v ≠ .nan → NotAbove (g v) (l.foldl (fun m v => o.max m (g v)) (.inf true))) ∧
    (l.foldl (fun m v => o.max m (g v)) (.inf true) = .inf true ∨
      ∃ v ∈ l, l.foldl (fun m v => o.max m (g v)) (.inf true) = g v) := by
  obtain ⟨h1, -, h3, h4⟩ := foldl_extreme (nan := Flt.nan) (le := fun a b => NotAbove b a) (op := o.max) NotAbove.refl
    (fun hb h k => NotAbove.trans hb k h) ho.max_nan_right ho.max_or ho.max_left ho.max_right g l (.inf true) nofun
  exact ⟨h1, h3, h4⟩

/-- If the coordinates are finite, NaN or `+inf`, and one is finite, the smallest one is a finite coordinate. -/
theorem fold_min_finite (hg : ∀ v ∈ l, (g v).isFinite ∨ g v = .nan ∨ g v = .inf false)
    (hl : ∃ v ∈ l, (g v).isFinite) :
    (l.foldl (fun m v => o.min m (g v)) (.inf false)).isFinite ∧
    (∃ v ∈ l, (g v).isFinite ∧ l.foldl (fun m v => o.min m (g v)) (.inf false) = g v) ∧
    ∀ v ∈ l, (g v).isFinite → (l.foldl (fun m v => o.min m (g v)) (.inf false)).val ≤ (g v).val := by
  obtain ⟨h1, h2, h3⟩ := fold_min ho g l
  generalize l.foldl (fun m v => o.min m (g v)) (.inf false) = r at *
  have hr : r.isFinite := by
    obtain ⟨v, hv, hf⟩ := hl
    have h := h2 v hv (by rintro e; rw [e] at hf; exact hf)
    have hinf : r ≠ .inf false := by
      rintro rfl
      unfold NotAbove at h
      cases hgv : g v <;> simp_all [Flt.lt, Flt.isFinite]
    rcases h3 with h3 | ⟨w, hw, e⟩
    · exact absurd h3 hinf
    · rcases hg w hw with k | k | k
      · rw [e]; exact k
      · exact absurd (e.trans k) h1
      · exact absurd (e.trans k) hinf
  refine ⟨hr, ?_, fun v hv hf => ?_⟩
  · rcases h3 with h3 | ⟨w, hw, e⟩
    · rw [h3] at hr; exact absurd hr id
    · exact ⟨w, hw, e ▸ hr, e⟩
  · have h := h2 v hv (by rintro e; rw [e] at hf; exact hf)
    unfold NotAbove at h
    by_contra hlt
    rw [(Flt.lt_iff hf hr).2 (not_le.1 hlt)] at h
    exact absurd h (by simp)

/-- If the coordinates are finite or NaN, and one is finite, the largest one is a finite coordinate. -/
theorem fold_max_finite (hg : ∀ v ∈ l, (g v).isFinite ∨ g v = .nan) (hl : ∃ v ∈ l, (g v).isFinite) :
    (l.foldl (fun m v => o.max m (g v)) (.inf true)).isFinite ∧
    (∃ v ∈ l, (g v).isFinite ∧ l.foldl (fun m v => o.max m (g v)) (.inf true) = g v) ∧
    ∀ v ∈ l, (g v).isFinite → (g v).val ≤ (l.foldl (fun m v => o.max m (g v)) (.inf true)).val := by
  obtain ⟨h1, h2, h3⟩ := fold_max ho g l
  generalize l.foldl (fun m v => o.max m (g v)) (.inf true) = r at *
  have hr : r.isFinite := by
    obtain ⟨v, hv, hf⟩ := hl
    have h := h2 v hv (by rintro e; rw [e] at hf; exact hf)
    have hinf : r ≠ .inf true := by
      rintro rfl
      unfold NotAbove at h
      cases hgv : g v <;> simp_all [Flt.lt, Flt.isFinite]
    rcases h3 with h3 | ⟨w, hw, e⟩
    · exact absurd h3 hinf
    · rcases hg w hw with k | k
      · rw [e]; exact k
      · exact absurd (e.trans k) h1
  refine ⟨hr, ?_, fun v hv hf => ?_⟩
  · rcases h3 with h3 | ⟨w, hw, e⟩
    · rw [h3] at hr; exact absurd hr id
    · exact ⟨w, hw, e ▸ hr, e⟩
  · have h := h2 v hv (by rintro e; rw [e] at hf; exact hf)
    unfold NotAbove at h
    by_contra hlt
    rw [(Flt.lt_iff hr hf).2 (not_le.1 hlt)] at h
    exact absurd h (by simp)

/-- One coordinate is `+inf`: so is the largest. -/
theorem fold_max_inf (hl : ∃ v ∈ l, g v = .inf false) :
    l.foldl (fun m v => o.max m (g v)) (.inf true) = .inf false := by
  obtain ⟨h1, h2, h3⟩ := fold_max ho g l
  obtain ⟨v, hv, e⟩ := hl
  have h := h2 v hv (by rw [e]; nofun)
  generalize l.foldl (fun m v => o.max m (g v)) (.inf true) = r at *
  rw [e] at h
  unfold NotAbove at h
  cases r with
  | num => simp [Flt.lt] at h
  | inf b => cases b <;> simp_all [Flt.lt]
  | nan => exact absurd rfl h1

end fold

section coordinates
variable {lib : Libm Format.b64}

local notation "val" => Flt.val (f := Format.b64)
local notation "fin" => Flt.isFinite (f := Format.b64)

theorem f64_add_near {x y : F64 lib} (hx : fin x) (hy : fin y) (h : |val x + val y| ≤ 2 ^ 1000) :
    fin (x + y) ∧ |val (x + y) - (val x + val y)| ≤ 1 / 2 ^ 53 * |val x + val y| := by
  have h1 := ((RustFloat.range .b64 lib).add (x := x) (y := y) (k := 1000) hx hy
    (show 1000 ≤ (1024 : ℤ).toNat - 1 by decide) h).1
  have h2 := ((RustFloat.rounding .b64 lib).add h1).2.2
  rw [show (RustFloat.rounding .b64 lib).u = 1 / 2 ^ 53 from Format.u_b64] at h2
  exact ⟨h1, h2⟩

theorem f64_sub_near {x y : F64 lib} (hx : fin x) (hy : fin y) (h : |val x - val y| ≤ 2 ^ 1000) :
    fin (x - y) ∧ |val (x - y) - (val x - val y)| ≤ 1 / 2 ^ 53 * |val x - val y| := by
  have h1 := ((RustFloat.range .b64 lib).sub (x := x) (y := y) (k := 1000) hx hy
    (show 1000 ≤ (1024 : ℤ).toNat - 1 by decide) h).1
  have h2 := ((RustFloat.rounding .b64 lib).sub h1).2.2
  rw [show (RustFloat.rounding .b64 lib).u = 1 / 2 ^ 53 from Format.u_b64] at h2
  exact ⟨h1, h2⟩

theorem f64_mul_near {x y : F64 lib} (hx : fin x) (hy : fin y) (h : |val x * val y| ≤ 2 ^ 1000) :
    fin (x * y) ∧ |val (x * y) - val x * val y| ≤ 1 / 2 ^ 53 * (|val x * val y| + 1) := by
  have h1 := ((RustFloat.range .b64 lib).mul (x := x) (y := y) (k := 1000) hx hy
    (show 1000 ≤ (1024 : ℤ).toNat - 1 by decide) h).1
  have h2 := ((RustFloat.rounding .b64 lib).mul h1).2.2
  rw [show (RustFloat.rounding .b64 lib).u = 1 / 2 ^ 53 from Format.u_b64] at h2
  have h3 : (RustFloat.rounding .b64 lib).ω ≤ 1 := Format.ω_b64.trans (by norm_num)
  refine ⟨h1, h2.trans ?_⟩
  have : (0 : ℝ) ≤ 1 / 2 ^ 53 := by norm_num
  exact mul_le_mul_of_nonneg_left (add_le_add le_rfl h3) this

theorem le_big {x : ℝ} (h : x ≤ 2 ^ 100) : x ≤ 2 ^ 1000 :=
  h.trans (pow_le_pow_right₀ (by norm_num) (by norm_num))

/-- A drawn coordinate `p * scale + (-min * scale + 5)`. -/
theorem coord_near {m p σ five : F64 lib} (hm : fin m) (hp : fin p) (hσ : fin σ) (h5 : Is five 5) {s P K : ℝ}
    (hs : 0 < s) (hsσ : |val σ - s| ≤ 5 / 2 ^ 53 * s) (hmP : |val m| ≤ P) (hpP : |val p| ≤ P)
    (hsP : s * P ≤ 290 * K) (hK : 1 ≤ K) (hK' : K ≤ 2 ^ 30) :
    fin (p * σ + (-m * σ + five)) ∧
    |val (p * σ + (-m * σ + five)) - (s * val p + (-val m * s + 5))| ≤ K / 10 ^ 12 := by
  have step : ∀ {x : F64 lib}, fin x → |val x| ≤ P → fin (x * σ) ∧ |val (x * σ) - s * val x| ≤ 2000 / 2 ^ 53 * K ∧
      |s * val x| ≤ 290 * K := by
    intro x hx hxP
    have e1 : |val x * val σ - s * val x| ≤ 5 / 2 ^ 53 * (290 * K) := by
      rw [show val x * val σ - s * val x = val x * (val σ - s) by ring, abs_mul]
      calc |val x| * |val σ - s| ≤ P * (5 / 2 ^ 53 * s) := mul_le_mul hxP hsσ (abs_nonneg _) ((abs_nonneg _).trans hxP)
        _ = 5 / 2 ^ 53 * (s * P) := by ring
        _ ≤ _ := mul_le_mul_of_nonneg_left hsP (by norm_num)
    have e2 : |s * val x| ≤ 290 * K := by
      rw [abs_mul, abs_of_pos hs]
      exact (mul_le_mul_of_nonneg_left hxP hs.le).trans hsP
    have e3 : |val x * val σ| ≤ 291 * K := by
      have := abs_sub_abs_le_abs_sub (val x * val σ) (s * val x)
      linarith
    obtain ⟨f1, f2⟩ := f64_mul_near hx hσ (le_big (by linarith))
    refine ⟨f1, ?_, e2⟩
    have := abs_sub_le (val (x * σ)) (val x * val σ) (s * val x)
    linarith
  obtain ⟨p1, p2, p3⟩ := step hp hpP
  have hm' : fin (-m) := (Flt.neg_finite (f := .b64) m).2 hm
  have vm : val (-m) = -val m := Flt.neg_val (f := .b64) m
  obtain ⟨m1, m2, m3⟩ := step hm' (by rw [vm, abs_neg]; exact hmP)
  rw [vm] at m2 m3
  have b1 : |val (-m * σ) + val five| ≤ 300 * K := by
    rw [h5.2]
    rw [abs_le] at *
    constructor <;> linarith [m2.1, m2.2, m3.1, m3.2]
  obtain ⟨c1, c2⟩ := f64_add_near m1 h5.1 (le_big (by linarith))
  replace c2 := c2.trans (mul_le_mul_of_nonneg_left b1 (by norm_num))
  have b2 : |val (p * σ) + val (-m * σ + five)| ≤ 700 * K := by
    rw [abs_le] at *
    constructor <;> linarith [p2.1, p2.2, p3.1, p3.2, b1.1, b1.2, c2.1, c2.2]
  obtain ⟨d1, d2⟩ := f64_add_near p1 c1 (le_big (by linarith))
  replace d2 := d2.trans (mul_le_mul_of_nonneg_left b2 (by norm_num))
  refine ⟨d1, ?_⟩
  rw [h5.2] at b1 c2
  rw [abs_le] at *
  constructor <;> linarith [p2.1, p2.2, m2.1, m2.2, b1.1, b1.2, c2.1, c2.2, d2.1, d2.2, b2.1, b2.2]

theorem pos_num {c : F64 lib} {r : ℝ} (hc : Is c r) (hr : 0 < r) : ∃ h, c = Flt.num (f := .b64) false r h := by
  obtain ⟨k1, k2⟩ := hc
  revert k1 k2
  rcases c with ⟨s, x, hx⟩ | s | _ <;> intro k1 k2
  · cases s
    · simp only [Flt.val, Bool.false_eq_true, if_false] at k2
      subst k2
      exact ⟨hx, rfl⟩
    · have h0 := hx.2
      obtain ⟨m, e, -, -, h0⟩ := h0
      have : 0 ≤ x := by rw [h0]; positivity
      simp only [Flt.val, if_true] at k2
      linarith
  · exact absurd k1 id
  · exact absurd k1 id

/-- The extent of an axis and the scale that fits it into `r` units. -/
theorem scale_near {c mn mx : F64 lib} {r : ℝ} (hc : Is c r) (hr : 100 ≤ r) (hr' : r ≤ 300) (hmn : fin mn)
    (hmx : fin mx) {P : ℝ} (hP : P ≤ 2 ^ 900) (h1 : |val mn| ≤ P) (h2 : |val mx| ≤ P) (hle : val mn ≤ val mx)
    (hflat : val mn = val mx → mx = mn) :
    (c / (mx - mn) = Flt.inf (f := .b64) false ∧ val mx - val mn < 1 / 2 ^ 990) ∨
    (fin (c / (mx - mn)) ∧ 0 < val mx - val mn ∧
      |val (c / (mx - mn)) - r / (val mx - val mn)| ≤ 5 / 2 ^ 53 * (r / (val mx - val mn))) := by
  have hcpos := pos_num hc (by linarith)
  rcases hle.eq_or_lt with heq | hlt
  · left
    refine ⟨?_, by rw [heq, sub_self]; positivity⟩
    rw [hflat heq]
    obtain ⟨h, rfl⟩ := hcpos
    show Flt.div (f := .b64) _ (Flt.add mn (Flt.neg mn)) = _
    have e0 : Flt.add mn (Flt.neg mn) = Flt.num (f := .b64) false 0 Flt.mag_zero := by
      rcases mn with ⟨s, x, hx⟩ | s | _
      · simp only [Flt.neg, Flt.add]
        have : Flt.val (Flt.num s x hx) + Flt.val (Flt.num (!s) x hx) = 0 := by
          cases s <;> simp [Flt.val]
        rw [this, Flt.ofReal_zero]
        cases s <;> rfl
      · exact absurd hmn id
      · exact absurd hmn id
    rw [e0]
    have : r ≠ 0 := by linarith
    simp [Flt.div, this]
  have hΔ : 0 < val mx - val mn := sub_pos.2 hlt
  have hΔ2 : val mx - val mn ≤ 2 * 2 ^ 900 := by
    rw [abs_le] at h1 h2
    generalize (2 : ℝ) ^ 900 = B at *
    linarith [h1.1, h2.2]
  set Δ := val mx - val mn with hΔdef
  have hbig : (2 : ℝ) * 2 ^ 900 ≤ 2 ^ 1000 := by
    rw [← pow_succ']; exact pow_le_pow_right₀ (by norm_num) (by norm_num)
  obtain ⟨d1, d2⟩ := f64_sub_near hmx hmn (by rw [← hΔdef, abs_of_pos hΔ]; exact hΔ2.trans hbig)
  rw [← hΔdef, abs_of_pos hΔ] at d2
  generalize mx - mn = d at *
  have d3 := abs_le.1 d2
  have dpos : 0 < val d := by linarith [d3.1]
  have hrd : r / val d ≤ 2 * (r / Δ) := by
    rw [div_le_iff₀ dpos]
    have : r / Δ * val d ≥ r / Δ * (Δ / 2) := mul_le_mul_of_nonneg_left (by linarith [d3.1]) (by positivity)
    have e : r / Δ * (Δ / 2) = r / 2 := by field_simp
    linarith
  by_cases hf : fin (c / d)
  · right
    refine ⟨hf, hΔ, ?_⟩
    have k := (((RustFloat.rounding .b64 lib).div hf).2 d1).2
    rw [show (RustFloat.rounding .b64 lib).u = 1 / 2 ^ 53 from Format.u_b64,
      show (RustFloat.rounding .b64 lib).ω = 1 / 2 ^ 1022 from Format.ω_b64'] at k
    have k' : |val (c / d) - r / val d| ≤ 1 / 2 ^ 53 * (r / val d + 1 / 2 ^ 1022) := by
      have := k
      simp only [show ∀ x, (RustFloat.rounding .b64 lib).val x = val x from fun _ => rfl, hc.2] at this
      rwa [abs_of_pos (show (0 : ℝ) < r / val d by positivity)] at this
    have hω : (1 : ℝ) / 2 ^ 1022 ≤ r / Δ := by
      rw [div_le_div_iff₀ (by positivity) hΔ, one_mul]
      calc Δ ≤ 2 ^ 1000 := hΔ2.trans hbig
        _ ≤ 1 * 2 ^ 1022 := by rw [one_mul]; exact pow_le_pow_right₀ (by norm_num) (by norm_num)
        _ ≤ r * 2 ^ 1022 := mul_le_mul_of_nonneg_right (by linarith) (by positivity)
    have e : |r / val d - r / Δ| ≤ 1 / 2 ^ 53 * (2 * (r / Δ)) := by
      have : r / val d - r / Δ = (Δ - val d) / Δ * (r / val d) := by field_simp
      rw [this, abs_mul, abs_of_pos (show (0 : ℝ) < r / val d by positivity), abs_div, abs_of_pos hΔ, abs_sub_comm]
      refine mul_le_mul ?_ hrd (by positivity) (by norm_num)
      rw [div_le_iff₀ hΔ]
      exact d2
    have t := abs_sub_le (val (c / d)) (r / val d) (r / Δ)
    clear hbig hΔ2 hP k
    generalize (1 : ℝ) / 2 ^ 1022 = w at *
    linarith
  · left
    have e : c / d = Flt.ofReal .b64 (Flt.neg? c ^^ Flt.neg? d) (r / val d) := by
      have := Flt.div_eq (f := .b64) hc.1 d1 dpos.ne'
      rw [hc.2] at this
      exact this
    rw [e] at hf ⊢
    have hx : 0 < r / val d := by positivity
    constructor
    · unfold Flt.ofReal at hf ⊢
      simp only [hx.ne', if_false, not_lt.2 hx.le, decide_false] at hf ⊢
      split_ifs with h
      · rw [dif_pos h] at hf; exact absurd trivial hf
      · rfl
    · by_contra hge
      rw [not_lt] at hge
      refine hf (Flt.ofReal_within (k := 1000) (show 1000 ≤ (1024 : ℤ).toNat - 1 by decide) ?_).1
      rw [abs_of_pos hx]
      refine hrd.trans ?_
      have h3 : r / Δ ≤ 300 * 2 ^ 990 := by
        rw [div_le_iff₀ hΔ]
        have : 300 * (2 : ℝ) ^ 990 * (1 / 2 ^ 990) ≤ 300 * 2 ^ 990 * Δ := mul_le_mul_of_nonneg_left hge (by positivity)
        have e : 300 * (2 : ℝ) ^ 990 * (1 / 2 ^ 990) = 300 := by field_simp
        exact hr'.trans (e.symm.le.trans this)
      have h4 : (2 : ℝ) ^ 1000 = 1024 * 2 ^ 990 := by
        rw [show (1000 : ℕ) = 10 + 990 by norm_num, pow_add]; norm_num
      rw [h4]
      have : (0 : ℝ) < 2 ^ 990 := by positivity
      clear hbig hΔ2 hP h4 hge
      generalize (2 : ℝ) ^ 990 = B at *
      linarith

theorem f64_lit {n : ℕ} (h : n < 2 ^ 53) : Is (Scalar.lit n : F64 lib) n := by
  have hm : Format.b64.Mag |(n : ℝ)| := by rw [Nat.abs_cast]; exact Flt.mag_nat (f := .b64) h
  have e : (Scalar.lit n : F64 lib) = Flt.ofF64 .b64 (n : ℝ) := by
    show Flt.ofF64 .b64 (((n : ℚ) : ℝ)) = _
    rw [Rat.cast_natCast]
  unfold Is
  rw [e]
  exact Flt.ofF64_exact hm hm

theorem f64_lit_five : Is (Scalar.lit 5 : F64 lib) 5 := by
  simpa using f64_lit (lib := lib) (n := 5) (by norm_num)

theorem f64_lit_two : Is (Scalar.lit 2 : F64 lib) 2 := by
  simpa using f64_lit (lib := lib) (n := 2) (by norm_num)

theorem room {len : F64 lib} {n m : ℕ} (h : Is len n) (hm : n = m + 10) (hn : n < 2 ^ 53) :
    Is (len - Scalar.lit 2 * Scalar.lit 5) m := by
  have h10 : Is (Scalar.lit 2 * Scalar.lit 5 : F64 lib) (2 * 5) := Is.mul f64_lit_two f64_lit_five (by
    have := Flt.mag_nat (f := .b64) (n := 10) (by show 10 < 2 ^ 53; norm_num)
    norm_num at this ⊢
    exact this)
  have e : (n : ℝ) + -(2 * 5) = m := by rw [hm]; push_cast; ring
  have := Is.add h h10.neg (by rw [e, Nat.abs_cast]; exact Flt.mag_nat (f := .b64) (show m < 2 ^ 53 by omega))
  rw [e] at this
  exact this

theorem room_x : Is (Scalar.lit 300 - Scalar.lit 2 * Scalar.lit 5 : F64 lib) 290 := by
  simpa using room (lib := lib) (n := 300) (m := 290) (by simpa using f64_lit (lib := lib) (n := 300) (by norm_num))
    (by norm_num) (by norm_num)

theorem room_y : Is (Scalar.lit 200 - Scalar.lit 2 * Scalar.lit 5 : F64 lib) 190 := by
  simpa using room (lib := lib) (n := 200) (m := 190) (by simpa using f64_lit (lib := lib) (n := 200) (by norm_num))
    (by norm_num) (by norm_num)

/-- The common scale of both axes. -/
noncomputable def scaleOf {F : Type} [Scalar F] (w : SvgWriter F) : F :=
  if Scalar.lt ((Scalar.lit 200 - Scalar.lit 2 * Scalar.lit 5) / (w.ymax - w.ymin))
      ((Scalar.lit 300 - Scalar.lit 2 * Scalar.lit 5) / (w.xmax - w.xmin)) = true then
    (Scalar.lit 200 - Scalar.lit 2 * Scalar.lit 5) / (w.ymax - w.ymin)
  else (Scalar.lit 300 - Scalar.lit 2 * Scalar.lit 5) / (w.xmax - w.xmin)

theorem save_eq {F : Type} [Scalar F] {n : ℕ} (px : Mat n 2 F) (edges : List (Fin n × Fin n)) (w : SvgWriter F)
    (hs : w.segs = edges.map fun e => ((px e.1 0, px e.1 1), (px e.2 0, px e.2 1))) :
    w.save = drawing (fun v => px v 0 * scaleOf w + (-w.xmin * scaleOf w + Scalar.lit 5))
      (fun v => px v 1 * scaleOf w + (-w.ymin * scaleOf w + Scalar.lit 5)) (Scalar.lit 2) (Scalar.lit 5) edges := by
  unfold SvgWriter.save scaleOf drawing
  simp only [hs, List.flatMap_map]
  split_ifs <;> rfl

/-- The scale chosen is that of the narrower fit. -/
theorem scale_choice {xs ys : F64 lib} {Dx Dy : ℝ} (hDy : 0 ≤ Dy)
    (hx : (xs = Flt.inf (f := .b64) false ∧ Dx < 1 / 2 ^ 990) ∨
      (fin xs ∧ 0 < Dx ∧ |val xs - 290 / Dx| ≤ 5 / 2 ^ 53 * (290 / Dx)))
    (hy : (ys = Flt.inf (f := .b64) false ∧ Dy < 1 / 2 ^ 990) ∨
      (fin ys ∧ 0 < Dy ∧ |val ys - 190 / Dy| ≤ 5 / 2 ^ 53 * (190 / Dy)))
    (hD : 1 / 2 ^ 980 ≤ Dx ∨ 1 / 2 ^ 980 ≤ Dy) {σ : F64 lib}
    (hσ : σ = if Scalar.lt ys xs = true then ys else xs) :
    ∃ s : ℝ, 0 < s ∧ s * Dx ≤ 290 ∧ s * Dy ≤ 190 ∧ (s * Dx = 290 ∨ s * Dy = 190) ∧
      fin σ ∧ |val σ - s| ≤ 5 / 2 ^ 53 * s := by
  have h10 : (1 : ℝ) / 2 ^ 980 = 1024 * (1 / 2 ^ 990) := by
    rw [show (990 : ℕ) = 980 + 10 by norm_num, pow_add]; field_simp; norm_num
  have hτ : (0 : ℝ) < 1 / 2 ^ 990 := by positivity
  rw [h10] at hD
  clear h10
  generalize (1 : ℝ) / 2 ^ 990 = τ at *
  rcases hx with ⟨ex, hx⟩ | ⟨fx, px, hx⟩ <;> rcases hy with ⟨ey, hy⟩ | ⟨fy, py, hy⟩
  · rcases hD with h | h <;> linarith
  · have hlt : Scalar.lt ys xs = true := by
      rw [ex]
      revert fy
      rcases ys with ⟨s, x, h⟩ | s | _ <;> intro fy
      · rfl
      · exact absurd fy id
      · exact absurd fy id
    rw [if_pos hlt] at hσ
    subst hσ
    have e : 190 / Dy * Dy = 190 := by field_simp
    refine ⟨190 / Dy, by positivity, ?_, e.le, Or.inr e, fy, hy⟩
    have h1 : Dx ≤ Dy := by rcases hD with h | h <;> linarith
    have h2 : 190 / Dy * Dx ≤ 190 / Dy * Dy := mul_le_mul_of_nonneg_left h1 (by positivity)
    linarith
  · have hlt : ¬ Scalar.lt ys xs = true := by
      rw [ey]
      revert fx
      rcases xs with ⟨s, x, h⟩ | s | _ <;> intro fx
      · exact nofun
      · exact absurd fx id
      · exact absurd fx id
    rw [if_neg hlt] at hσ
    subst hσ
    have e : 290 / Dx * Dx = 290 := by field_simp
    refine ⟨290 / Dx, by positivity, e.le, ?_, Or.inl e, fx, hx⟩
    have h1 : 1024 * Dy ≤ Dx := by rcases hD with h | h <;> linarith
    have h2 : 290 / Dx * (1024 * Dy) ≤ 290 / Dx * Dx := mul_le_mul_of_nonneg_left h1 (by positivity)
    have h3 : 290 / Dx * (1024 * Dy) = 1024 * (290 / Dx * Dy) := by ring
    have h4 : 0 ≤ 290 / Dx * Dy := by positivity
    linarith
  · have ex : 290 / Dx * Dx = 290 := by field_simp
    have ey : 190 / Dy * Dy = 190 := by field_simp
    have px' : 0 < 290 / Dx := by positivity
    have py' : 0 < 190 / Dy := by positivity
    have hlt : Scalar.lt ys xs = true ↔ val ys < val xs := Flt.lt_iff fy fx
    generalize 290 / Dx = sx at *
    generalize 190 / Dy = sy at *
    rw [abs_le] at hx hy
    have key : ∀ σ : F64 lib, fin σ → (σ = xs ∧ val xs ≤ val ys ∨ σ = ys ∧ val ys ≤ val xs) →
        ∃ s : ℝ, 0 < s ∧ s * Dx ≤ 290 ∧ s * Dy ≤ 190 ∧ (s * Dx = 290 ∨ s * Dy = 190) ∧ fin σ ∧
          |val σ - s| ≤ 5 / 2 ^ 53 * s := by
      intro σ fσ hσ
      rcases le_total sx sy with h | h
      · refine ⟨sx, px', ex.le, ?_, Or.inl ex, fσ, ?_⟩
        · rw [← ey]; exact mul_le_mul_of_nonneg_right h py.le
        · rw [abs_le]
          rcases hσ with ⟨rfl, k⟩ | ⟨rfl, k⟩ <;> constructor <;> linarith [hx.1, hx.2, hy.1, hy.2]
      · refine ⟨sy, py', ?_, ey.le, Or.inr ey, fσ, ?_⟩
        · rw [← ex]; exact mul_le_mul_of_nonneg_right h px.le
        · rw [abs_le]
          rcases hσ with ⟨rfl, k⟩ | ⟨rfl, k⟩ <;> constructor <;> linarith [hx.1, hx.2, hy.1, hy.2]
    by_cases h : Scalar.lt ys xs = true
    · rw [if_pos h] at hσ
      subst hσ
      exact key _ fy (Or.inr ⟨rfl, (hlt.1 h).le⟩)
    · rw [if_neg h] at hσ
      subst hσ
      exact key _ fx (Or.inl ⟨rfl, not_lt.1 fun k => h (hlt.2 k)⟩)

end coordinates

/-- One axis of the picture: vertex `v` with pixel coordinate `x v` is drawn at `X v`, within `ε` of
`s * x v + t`; that keeps a border of 5 and touches the lower one.  A NaN coordinate is drawn as NaN. -/
structure Spec.AxisDrawn {n : ℕ} (edges : List (Fin n × Fin n)) (x X : Fin n → Flt .b64) (s t len ε : ℝ) : Prop where
  shown : ∀ v ∈ ends edges, (x v).isFinite → (X v).isFinite ∧ |(X v).val - (s * (x v).val + t)| ≤ ε
  inside : ∀ v ∈ ends edges, (x v).isFinite → 5 ≤ s * (x v).val + t ∧ s * (x v).val + t ≤ len - 5
  first : ∃ v ∈ ends edges, (x v).isFinite ∧ s * (x v).val + t = 5
  unseen : ∀ v ∈ ends edges, x v = .nan → X v = .nan

/-- Two different finite numbers occur, or all are the same number (not both `+0` and `-0`). -/
def Spec.WideOrFlat {n : ℕ} (edges : List (Fin n × Fin n)) (x : Fin n → Flt .b64) : Prop :=
  (∃ v ∈ ends edges, ∃ v' ∈ ends edges, (x v).isFinite ∧ (x v').isFinite ∧ (x v).val ≠ (x v').val) ∨
  ∀ v ∈ ends edges, ∀ v' ∈ ends edges, (x v).isFinite → (x v').isFinite → x v = x v'

section rendering
variable {lib : Libm Format.b64} {n : ℕ}

local notation "val" => Flt.val (f := Format.b64)
local notation "fin" => Flt.isFinite (f := Format.b64)

/-- The finite coordinates of an axis and their extremes. -/
theorem axis_box {o : F64Order (F64 lib)} (ho : IsF64Order o) {edges : List (Fin n × Fin n)} {x : Fin n → F64 lib}
    {P : ℝ} (hx : ∀ v ∈ ends edges, Flt.Bounded (f := .b64) P (x v) ∨ x v = Flt.nan (f := .b64))
    (hone : ∃ v ∈ ends edges, fin (x v)) (hflat : WideOrFlat edges x)
    {mn mx : F64 lib} (hmn : mn = (ends edges).foldl (fun m v => o.min m (x v)) o.inf)
    (hmx : mx = (ends edges).foldl (fun m v => o.max m (x v)) (-o.inf)) :
    fin mn ∧ fin mx ∧ |val mn| ≤ P ∧ |val mx| ≤ P ∧ val mn ≤ val mx ∧ (val mn = val mx → mx = mn) ∧
    (∀ v ∈ ends edges, fin (x v) → val mn ≤ val (x v) ∧ val (x v) ≤ val mx) ∧
    (∃ v ∈ ends edges, fin (x v) ∧ val (x v) = val mn) ∧ ∃ v ∈ ends edges, fin (x v) ∧ val (x v) = val mx := by
  have e1 : o.inf = Flt.inf (f := .b64) false := ho.inf
  have e2 : -o.inf = Flt.inf (f := .b64) true := by rw [e1]; rfl
  rw [e1] at hmn
  rw [e2] at hmx
  have hx' : ∀ v ∈ ends edges, fin (x v) ∨ x v = Flt.nan (f := .b64) := fun v hv => (hx v hv).imp_left fun h => h.1
  obtain ⟨a1, ⟨a, ha, fa, ea⟩, a3⟩ : fin mn ∧ (∃ v ∈ ends edges, fin (x v) ∧ mn = x v) ∧
      ∀ v ∈ ends edges, fin (x v) → val mn ≤ val (x v) := by
    subst hmn
    exact fold_min_finite (f := .b64) ho x (ends edges) (fun v hv => (hx' v hv).imp_right Or.inl) hone
  obtain ⟨b1, ⟨b, hb, fb, eb⟩, b3⟩ : fin mx ∧ (∃ v ∈ ends edges, fin (x v) ∧ mx = x v) ∧
      ∀ v ∈ ends edges, fin (x v) → val (x v) ≤ val mx := by
    subst hmx
    exact fold_max_finite (f := .b64) ho x (ends edges) hx' hone
  have bd : ∀ v ∈ ends edges, fin (x v) → |val (x v)| ≤ P := by
    intro v hv hf
    rcases hx v hv with h | h
    · exact h.2
    · rw [h] at hf; exact absurd hf id
  refine ⟨a1, b1, ?_, ?_, ?_, ?_, fun v hv hf => ⟨a3 v hv hf, b3 v hv hf⟩, ⟨a, ha, fa, by rw [ea]⟩, ⟨b, hb, fb, by rw [eb]⟩⟩
  · rw [ea]; exact bd a ha fa
  · rw [eb]; exact bd b hb fb
  · rw [ea]; exact b3 a ha fa
  · intro e
    rcases hflat with ⟨v, hv, v', hv', fv, fv', hne⟩ | h
    · refine absurd (le_antisymm ?_ ?_) hne
      · exact (b3 v hv fv).trans (e.symm.le.trans (a3 v' hv' fv'))
      · exact (b3 v' hv' fv').trans (e.symm.le.trans (a3 v hv fv))
    · rw [ea, eb]; exact h b hb a ha fb fa

/-- One axis of the rendering. -/
theorem axis_drawn {edges : List (Fin n × Fin n)} {x : Fin n → F64 lib} {mn mx σ : F64 lib} {s P K len : ℝ}
    (hx : ∀ v ∈ ends edges, Flt.Bounded (f := .b64) P (x v) ∨ x v = Flt.nan (f := .b64))
    (hmn : fin mn) (hmnP : |val mn| ≤ P)
    (hbox : ∀ v ∈ ends edges, fin (x v) → val mn ≤ val (x v) ∧ val (x v) ≤ val mx)
    (hat : ∃ v ∈ ends edges, fin (x v) ∧ val (x v) = val mn)
    (hs : 0 < s) (hlen : s * (val mx - val mn) ≤ len - 10) (hσ : fin σ) (hsσ : |val σ - s| ≤ 5 / 2 ^ 53 * s)
    (hsP : s * P ≤ 290 * K) (hK : 1 ≤ K) (hK' : K ≤ 2 ^ 30) :
    AxisDrawn edges x (fun v => x v * σ + (-mn * σ + Scalar.lit 5)) s (-val mn * s + 5) len (K / 10 ^ 12) where
  shown v hv hf := by
    rcases hx v hv with h | h
    · exact coord_near hmn hf hσ f64_lit_five hs hsσ hmnP h.2 hsP hK hK'
    · rw [h] at hf; exact absurd hf id
  inside v hv hf := by
    obtain ⟨h1, h2⟩ := hbox v hv hf
    have h3 : s * val mn ≤ s * val (x v) := mul_le_mul_of_nonneg_left h1 hs.le
    have h4 : s * val (x v) ≤ s * val mx := mul_le_mul_of_nonneg_left h2 hs.le
    constructor <;> linarith
  first := by
    obtain ⟨v, hv, hf, e⟩ := hat
    exact ⟨v, hv, hf, by rw [e]; ring⟩
  unseen v _ h := by
    show Flt.add (Flt.mul (x v) σ) _ = _
    rw [h]
    rfl

theorem render_drawing {I : Type} [IntrinsicParameters (F64 lib) I] (o : F64Order (F64 lib))
    (verts : Points WorldFrame (F64 lib) n) (cam : Camera (F64 lib) I) (edges : List (Fin n × Fin n)) :
    ∃ w : SvgWriter (F64 lib), renderWireframe o verts (indices edges) cam =
        .ok (drawing (fun v => (cam.worldToPixel verts).data v 0 * scaleOf w + (-w.xmin * scaleOf w + Scalar.lit 5))
          (fun v => (cam.worldToPixel verts).data v 1 * scaleOf w + (-w.ymin * scaleOf w + Scalar.lit 5))
          (Scalar.lit 2) (Scalar.lit 5) edges) ∧
      w.xmin = (ends edges).foldl (fun m v => o.min m ((cam.worldToPixel verts).data v 0)) o.inf ∧
      w.xmax = (ends edges).foldl (fun m v => o.max m ((cam.worldToPixel verts).data v 0)) (-o.inf) ∧
      w.ymin = (ends edges).foldl (fun m v => o.min m ((cam.worldToPixel verts).data v 1)) o.inf ∧
      w.ymax = (ends edges).foldl (fun m v => o.max m ((cam.worldToPixel verts).data v 1)) (-o.inf) := by
  have hw := writerOf_eq o (cam.worldToPixel verts).data edges (SvgWriter.new o)
  refine ⟨writerOf o (cam.worldToPixel verts).data edges (SvgWriter.new o), ?_, ?_, ?_, ?_, ?_⟩
  · rw [render_ok, save_eq (cam.worldToPixel verts).data edges]
    rw [hw]
    rfl
  all_goals rw [hw]; rfl

/-- **C98**: the picture drawn in `f64`.  Suppose every pixel coordinate of the vertices used is NaN or finite and
at most `P` in magnitude, each axis has a finite one, and `P` is at most `K` times the width or the height of the
image.  Then there is a magnified and shifted image that fits as C71 says, and every finite coordinate is drawn
as a finite number within `K * 1e-12` of it; NaN coordinates are drawn as NaN and do not disturb the others.  One
axis may be flat. -/
theorem c98_rendering {I : Type} [IntrinsicParameters (F64 lib) I] {o : F64Order (F64 lib)} (ho : IsF64Order o)
    (verts : Points WorldFrame (F64 lib) n) (cam : Camera (F64 lib) I) (edges : List (Fin n × Fin n))
    (px : Mat n 2 (F64 lib)) (hpx : px = (cam.worldToPixel verts).data) {P K : ℝ} (hK : 1 ≤ K) (hK' : K ≤ 2 ^ 30)
    (hP : 1 / 2 ^ 900 ≤ P) (hP' : P ≤ 2 ^ 900)
    (hx : ∀ v ∈ ends edges, ∀ k, Flt.Bounded (f := .b64) P (px v k) ∨ px v k = Flt.nan (f := .b64))
    (hone : ∀ k, ∃ v ∈ ends edges, fin (px v k)) (hflat : ∀ k, WideOrFlat edges fun v => px v k)
    (hext : ∃ k, ∃ v ∈ ends edges, ∃ v' ∈ ends edges, fin (px v k) ∧ fin (px v' k) ∧
      P ≤ K * (val (px v k) - val (px v' k))) :
    ∃ s tx ty : ℝ, ∃ X Y : Fin n → F64 lib, ∃ width radius : F64 lib, 0 < s ∧ Is width 2 ∧ Is radius 5 ∧
      renderWireframe o verts (indices edges) cam = .ok (drawing X Y width radius edges) ∧
      AxisDrawn edges (fun v => px v 0) X s tx 300 (K / 10 ^ 12) ∧
      AxisDrawn edges (fun v => px v 1) Y s ty 200 (K / 10 ^ 12) ∧
      ((∃ v ∈ ends edges, fin (px v 0) ∧ s * val (px v 0) + tx = 300 - 5) ∨
        ∃ v ∈ ends edges, fin (px v 1) ∧ s * val (px v 1) + ty = 200 - 5) := by
  obtain ⟨w, hr, e1, e2, e3, e4⟩ := render_drawing o verts cam edges
  rw [← hpx] at hr e1 e2 e3 e4
  obtain ⟨fx1, fx2, bx1, bx2, lx, flx, ix, ax, ax'⟩ :=
    axis_box ho (x := fun v => px v 0) (fun v hv => hx v hv 0) (hone 0) (hflat 0) e1 e2
  obtain ⟨fy1, fy2, by1, by2, ly, fly, iy, ay, ay'⟩ :=
    axis_box ho (x := fun v => px v 1) (fun v hv => hx v hv 1) (hone 1) (hflat 1) e3 e4
  have hP0 : (0 : ℝ) < 1 / 2 ^ 900 := by positivity
  have hext' : P ≤ K * (val w.xmax - val w.xmin) ∨ P ≤ K * (val w.ymax - val w.ymin) := by
    obtain ⟨k, v, hv, v', hv', hf, hf', h⟩ := hext
    have hk : k = 0 ∨ k = 1 := by fin_cases k <;> simp
    rcases hk with rfl | rfl
    · left
      refine h.trans (mul_le_mul_of_nonneg_left ?_ (by linarith))
      linarith [(ix v hv hf).2, (ix v' hv' hf').1]
    · right
      refine h.trans (mul_le_mul_of_nonneg_left ?_ (by linarith))
      linarith [(iy v hv hf).2, (iy v' hv' hf').1]
  have h980 : ∀ d : ℝ, P ≤ K * d → 1 / 2 ^ 980 ≤ d := by
    intro d h
    by_contra hd
    rw [not_le] at hd
    have h1 : K * d < 2 ^ 30 * (1 / 2 ^ 980) := by
      rcases le_or_gt d 0 with h0 | h0
      · have : K * d ≤ 0 := mul_nonpos_of_nonneg_of_nonpos (by linarith) h0
        exact this.trans_lt (by positivity)
      · exact lt_of_le_of_lt (mul_le_mul_of_nonneg_right hK' h0.le) (mul_lt_mul_of_pos_left hd (by norm_num))
    have h2 : (2 : ℝ) ^ 30 * (1 / 2 ^ 980) ≤ 1 / 2 ^ 900 := by
      rw [mul_one_div, div_le_div_iff₀ (by positivity) (by positivity), one_mul, ← pow_add]
      exact pow_le_pow_right₀ (by norm_num) (by norm_num)
    exact absurd (hP.trans h) (not_le.2 (h1.trans_le h2))
  obtain ⟨s, hs, sx, sy, sxy, fσ, hσ⟩ := scale_choice (by linarith)
    (scale_near room_x (by norm_num) (by norm_num) fx1 fx2 hP' bx1 bx2 lx flx)
    (scale_near room_y (by norm_num) (by norm_num) fy1 fy2 hP' by1 by2 ly fly)
    (hext'.imp (h980 _) (h980 _)) (σ := scaleOf w) rfl
  have hsP : s * P ≤ 290 * K := by
    have step : ∀ d r : ℝ, P ≤ K * d → s * d ≤ r → r ≤ 290 → s * P ≤ 290 * K := by
      intro d r h1 h2 h3
      calc s * P ≤ s * (K * d) := mul_le_mul_of_nonneg_left h1 hs.le
        _ = K * (s * d) := by ring
        _ ≤ K * 290 := mul_le_mul_of_nonneg_left (h2.trans h3) (by linarith)
        _ = _ := mul_comm _ _
    rcases hext' with h | h
    · exact step _ _ h sx (by norm_num)
    · exact step _ _ h sy (by norm_num)
  refine ⟨s, -val w.xmin * s + 5, -val w.ymin * s + 5, _, _, _, _, hs, f64_lit_two, f64_lit_five, hr, ?_, ?_, ?_⟩
  · exact axis_drawn (fun v hv => hx v hv 0) fx1 bx1 ix ax hs (by linarith) fσ hσ hsP hK hK'
  · exact axis_drawn (fun v hv => hx v hv 1) fy1 by1 iy ay hs (by linarith) fσ hσ hsP hK hK'
  · rcases sxy with h | h
    · left
      obtain ⟨v, hv, hf, e⟩ := ax'
      refine ⟨v, hv, hf, ?_⟩
      rw [e]; linarith
    · right
      obtain ⟨v, hv, hf, e⟩ := ay'
      refine ⟨v, hv, hf, ?_⟩
      rw [e]; linarith

/-- A nonzero number divided by a zero. -/
theorem div_zero_inf {c d : F64 lib} {r : ℝ} (hc : Is c r) (hr : r ≠ 0) (hd : Is d 0) :
    ∃ b, c / d = Flt.inf (f := .b64) b := by
  obtain ⟨c1, c2⟩ := hc
  obtain ⟨d1, d2⟩ := hd
  show ∃ b, Flt.div c d = _
  rcases c with ⟨s, x, h⟩ | s | _
  · rcases d with ⟨t, y, k⟩ | t | _
    · have hx : x ≠ 0 := by
        rintro rfl
        rw [Flt.val_eq_zero.2 rfl] at c2
        exact hr c2.symm
      rw [Flt.val_eq_zero] at d2
      exact ⟨s ^^ t, by simp only [Flt.div, d2, hx, if_true, if_false]⟩
    · exact absurd d1 id
    · exact absurd d1 id
  · exact absurd c1 id
  · exact absurd c1 id

/-- With an infinite scale a coordinate equal to the least one is NaN. -/
theorem inf_scale {p m σ five : F64 lib} {b : Bool} (hp : fin p) (hm : fin m) (h5 : fin five) (h : val p = val m)
    (hσ : σ = Flt.inf (f := .b64) b) : p * σ + (-m * σ + five) = Flt.nan (f := .b64) := by
  subst hσ
  show Flt.add (Flt.mul p (.inf b)) (Flt.add (Flt.mul (Flt.neg m) (.inf b)) five) = _
  rcases p with ⟨s, x, hx⟩ | s | _
  · rcases m with ⟨t, y, hy⟩ | t | _
    · rcases five with ⟨r, z, hz⟩ | r | _
      · by_cases h0 : x = 0
        · simp [Flt.mul, h0, Flt.add]
        · have h0' : y ≠ 0 := fun k => h0 ((Flt.num_zero_iff h).2 k)
          obtain rfl := Flt.num_sign h h0
          cases s <;> cases b <;> simp [Flt.mul, Flt.neg, h0, h0', Flt.add]
      · exact absurd h5 id
      · exact absurd h5 id
    · exact absurd hm id
    · exact absurd hm id
  · exact absurd hp id
  · exact absurd hp id

/-- The scale is one of the two quotients. -/
theorem scaleOf_or {F : Type} [Scalar F] (w : SvgWriter F) :
    scaleOf w = (Scalar.lit 200 - Scalar.lit 2 * Scalar.lit 5) / (w.ymax - w.ymin) ∨
    scaleOf w = (Scalar.lit 300 - Scalar.lit 2 * Scalar.lit 5) / (w.xmax - w.xmin) := by
  unfold scaleOf
  split_ifs
  · exact Or.inl rfl
  · exact Or.inr rfl

theorem sub_same {x y : F64 lib} (hx : fin x) (hy : fin y) (h : val x = val y) : Is (x - y) 0 := by
  have := Is.add (x := x) (y := -y) ⟨hx, rfl⟩ (Is.neg ⟨hy, rfl⟩) (by rw [h, add_neg_cancel, abs_zero]; exact Flt.mag_zero)
  rw [h, add_neg_cancel] at this
  exact this

/-- A flat axis: least and largest coordinate have the same value. -/
theorem flat_axis {o : F64Order (F64 lib)} (ho : IsF64Order o) {edges : List (Fin n × Fin n)} {x : Fin n → F64 lib}
    (hx : ∀ v ∈ ends edges, fin (x v)) (hne : ends edges ≠ []) {r : ℝ} (heq : ∀ v ∈ ends edges, val (x v) = r)
    {mn mx : F64 lib} (hmn : mn = (ends edges).foldl (fun m v => o.min m (x v)) o.inf)
    (hmx : mx = (ends edges).foldl (fun m v => o.max m (x v)) (-o.inf)) : Is mn r ∧ Is mx r := by
  have e1 : o.inf = Flt.inf (f := .b64) false := ho.inf
  have e2 : -o.inf = Flt.inf (f := .b64) true := by rw [e1]; rfl
  rw [e1] at hmn
  rw [e2] at hmx
  obtain ⟨v, hv⟩ := List.exists_mem_of_ne_nil _ hne
  constructor
  · obtain ⟨a1, ⟨a, ha, fa, ea⟩, -⟩ : fin mn ∧ (∃ v ∈ ends edges, fin (x v) ∧ mn = x v) ∧
        ∀ v ∈ ends edges, fin (x v) → val mn ≤ val (x v) := by
      subst hmn
      exact fold_min_finite (f := .b64) ho x (ends edges) (fun v hv => Or.inl (hx v hv)) ⟨v, hv, hx v hv⟩
    exact ⟨a1, by rw [ea]; exact heq a ha⟩
  · obtain ⟨a1, ⟨a, ha, fa, ea⟩, -⟩ : fin mx ∧ (∃ v ∈ ends edges, fin (x v) ∧ mx = x v) ∧
        ∀ v ∈ ends edges, fin (x v) → val (x v) ≤ val mx := by
      subst hmx
      exact fold_max_finite (f := .b64) ho x (ends edges) (fun v hv => Or.inl (hx v hv)) ⟨v, hv, hx v hv⟩
    exact ⟨a1, by rw [ea]; exact heq a ha⟩

/-- Pictures are determined by the coordinates of the vertices used. -/
theorem drawing_congr {F : Type} {X X' Y Y' : Fin n → F} {width radius : F} {edges : List (Fin n × Fin n)}
    (hX : ∀ v ∈ ends edges, X v = X' v) (hY : ∀ v ∈ ends edges, Y v = Y' v) :
    drawing X Y width radius edges = drawing X' Y' width radius edges := by
  induction edges with
  | nil => rfl
  | cons e l ih =>
    have m1 : e.1 ∈ ends (e :: l) := by simp [ends]
    have m2 : e.2 ∈ ends (e :: l) := by simp [ends]
    have ms : ∀ v ∈ ends l, v ∈ ends (e :: l) := by
      intro v hv
      simp only [ends, List.flatMap_cons, List.mem_append] at hv ⊢
      exact Or.inr hv
    have := ih (fun v hv => hX v (ms v hv)) fun v hv => hY v (ms v hv)
    unfold drawing at this ⊢
    rw [List.flatMap_cons, List.flatMap_cons, this, hX _ m1, hX _ m2, hY _ m1, hY _ m2]

/-- **C98**: if all vertices used have the same finite image, every coordinate drawn is NaN; without edges the
picture is empty. -/
theorem c98_single_point {I : Type} [IntrinsicParameters (F64 lib) I] {o : F64Order (F64 lib)} (ho : IsF64Order o)
    (verts : Points WorldFrame (F64 lib) n) (cam : Camera (F64 lib) I) (edges : List (Fin n × Fin n))
    (px : Mat n 2 (F64 lib)) (hpx : px = (cam.worldToPixel verts).data)
    (a b : ℝ) (h : ∀ v ∈ ends edges, Is (px v 0) a ∧ Is (px v 1) b) :
    ∃ width radius : F64 lib, Is width 2 ∧ Is radius 5 ∧
      renderWireframe o verts (indices edges) cam =
        .ok (drawing (fun _ => Flt.nan (f := .b64)) (fun _ => Flt.nan (f := .b64)) width radius edges) := by
  obtain ⟨w, hr, e1, e2, e3, e4⟩ := render_drawing o verts cam edges
  rw [← hpx] at hr e1 e2 e3 e4
  refine ⟨_, _, f64_lit_two, f64_lit_five, ?_⟩
  rw [hr]
  by_cases hne : ends edges = []
  · have : edges = [] := by
      cases edges with
      | nil => rfl
      | cons e l => simp [ends] at hne
    subst this
    rfl
  obtain ⟨x1, x2⟩ := flat_axis ho (x := fun v => px v 0) (fun v hv => (h v hv).1.1) hne (fun v hv => (h v hv).1.2) e1 e2
  obtain ⟨y1, y2⟩ := flat_axis ho (x := fun v => px v 1) (fun v hv => (h v hv).2.1) hne (fun v hv => (h v hv).2.2) e3 e4
  have hσ : ∃ c, scaleOf w = Flt.inf (f := .b64) c := by
    rcases scaleOf_or w with e | e <;> rw [e]
    · exact div_zero_inf room_y (by norm_num) (sub_same y2.1 y1.1 (y2.2.trans y1.2.symm))
    · exact div_zero_inf room_x (by norm_num) (sub_same x2.1 x1.1 (x2.2.trans x1.2.symm))
  obtain ⟨c, hσ⟩ := hσ
  congr 1
  refine drawing_congr (fun v hv => ?_) fun v hv => ?_
  · exact inf_scale (h v hv).1.1 x1.1 f64_lit_five.1 ((h v hv).1.2.trans x1.2.symm) hσ
  · exact inf_scale (h v hv).2.1 y1.1 f64_lit_five.1 ((h v hv).2.2.trans y1.2.symm) hσ

/-- Finite and not negative, or `+inf`. -/
def NonNegOrInf (x : F64 lib) : Prop := x = Flt.inf (f := .b64) false ∨ (fin x ∧ 0 ≤ val x)

theorem ofReal_nonNeg {z : Bool} {x : ℝ} (hx : 0 < x) : NonNegOrInf (lib := lib) (Flt.ofReal .b64 z x) := by
  by_cases h : (Flt.ofReal .b64 z x).isFinite
  · refine Or.inr ⟨h, ?_⟩
    rw [Flt.ofReal_val h, if_neg (not_lt.2 hx.le)]
    exact Format.rnd_nonneg (abs_nonneg _)
  · left
    unfold Flt.ofReal at h ⊢
    simp only [hx.ne', if_false, not_lt.2 hx.le, decide_false] at h ⊢
    split_ifs with k
    · rw [dif_pos k] at h; exact absurd trivial h
    · rfl

/-- The scale of an axis whose largest coordinate is infinite. -/
theorem scale_inf {c mn mx : F64 lib} {r : ℝ} (hc : Is c r) (hr : 0 < r) (hmn : fin mn)
    (hmx : mx = Flt.inf (f := .b64) false) : Is (c / (mx - mn)) 0 := by
  obtain ⟨h, rfl⟩ := pos_num hc hr
  subst hmx
  have e : (Flt.add (Flt.inf false) (Flt.neg mn) : Flt .b64) = .inf false := by
    rcases mn with ⟨s, x, hx⟩ | s | _
    · rfl
    · exact absurd hmn id
    · exact absurd hmn id
  show Flt.isFinite (Flt.div (Flt.num false r h) (Flt.add (Flt.inf false) (Flt.neg mn))) ∧
    Flt.val (Flt.div (Flt.num false r h) (Flt.add (Flt.inf false) (Flt.neg mn))) = 0
  rw [e]
  exact Flt.ofReal_exact (by rw [abs_zero]; exact Flt.mag_zero)

/-- The scale of an axis of finite coordinates. -/
theorem scale_finite {c mn mx : F64 lib} {r : ℝ} (hc : Is c r) (hr : 0 < r) (hmn : fin mn) (hmx : fin mx)
    (hle : val mn ≤ val mx) (hflat : val mn = val mx → mx = mn) : NonNegOrInf (c / (mx - mn)) := by
  obtain ⟨h, e⟩ := pos_num hc hr
  rcases hle.eq_or_lt with heq | hlt
  · left
    rw [hflat heq, e]
    show Flt.div (f := .b64) _ (Flt.add mn (Flt.neg mn)) = _
    have e0 : Flt.add mn (Flt.neg mn) = Flt.num (f := .b64) false 0 Flt.mag_zero := by
      rcases mn with ⟨s, x, hx⟩ | s | _
      · simp only [Flt.neg, Flt.add]
        have : Flt.val (Flt.num s x hx) + Flt.val (Flt.num (!s) x hx) = 0 := by
          cases s <;> simp [Flt.val]
        rw [this, Flt.ofReal_zero]
        cases s <;> rfl
      · exact absurd hmn id
      · exact absurd hmn id
    rw [e0]
    simp [Flt.div, hr.ne']
  · have hd : mx - mn = Flt.ofReal .b64 (Flt.neg? mx && Flt.neg? (Flt.neg mn)) (val mx - val mn) := by
      show Flt.add mx (Flt.neg mn) = _
      have hv : val mx + (Flt.neg mn).val = val mx - val mn := by
        rw [show (Flt.neg mn).val = -val mn from Flt.neg_val (f := .b64) mn, sub_eq_add_neg]
      exact (Flt.add_eq hmx ((Flt.neg_finite (f := .b64) mn).2 hmn)).trans (congrArg _ hv)
    have hΔ : 0 < val mx - val mn := sub_pos.2 hlt
    have hn : NonNegOrInf (mx - mn) := by rw [hd]; exact ofReal_nonNeg hΔ
    rcases hn with hi | ⟨hf, h0⟩
    · rw [hi, e]
      right
      have := Flt.ofReal_exact (f := .b64) (z := xor false false) (x := 0) (by rw [abs_zero]; exact Flt.mag_zero)
      exact ⟨this.1, this.2.ge⟩
    · have hpos : 0 < val (mx - mn) := by
        have k := ((RustFloat.rounding .b64 lib).sub hf).2.2
        rw [show (RustFloat.rounding .b64 lib).u = 1 / 2 ^ 53 from Format.u_b64] at k
        change |val (mx - mn) - (val mx - val mn)| ≤ 1 / 2 ^ 53 * |val mx - val mn| at k
        rw [abs_of_pos hΔ] at k
        linarith [(abs_le.1 k).1]
      have := Flt.div_eq (f := .b64) hc.1 hf hpos.ne'
      rw [hc.2] at this
      show NonNegOrInf (lib := lib) (Flt.div c (mx - mn))
      rw [this]
      exact ofReal_nonNeg (div_pos hr hpos)

theorem zero_choice {xs ys σ : F64 lib} (hx : NonNegOrInf xs) (hy : NonNegOrInf ys) (h : Is xs 0 ∨ Is ys 0)
    (hσ : σ = if Scalar.lt ys xs = true then ys else xs) : Is σ 0 := by
  rcases h with h | h
  · have hlt : ¬ Scalar.lt ys xs = true := by
      obtain ⟨h1, h2⟩ := h
      rcases hy with e | ⟨k1, k2⟩
      · rw [e]
        rcases xs with ⟨s, x, hx⟩ | s | _
        · exact nofun
        · exact absurd h1 id
        · exact absurd h1 id
      · intro k
        have := (Flt.lt_iff k1 h1).1 k
        rw [h2] at this
        linarith
    rw [if_neg hlt] at hσ
    rw [hσ]
    exact h
  · by_cases hlt : Scalar.lt ys xs = true
    · rw [if_pos hlt] at hσ
      rw [hσ]
      exact h
    · rw [if_neg hlt] at hσ
      rw [hσ]
      obtain ⟨h1, h2⟩ := h
      rcases hx with e | ⟨k1, k2⟩
      · refine absurd ?_ hlt
        rw [e]
        rcases ys with ⟨s, x, hx⟩ | s | _
        · rfl
        · exact absurd h1 id
        · exact absurd h1 id
      · refine ⟨k1, le_antisymm ?_ k2⟩
        rw [← h2]
        exact not_lt.1 fun k => hlt ((Flt.lt_iff h1 k1).2 k)

/-- An axis whose coordinates are finite or `+inf`. -/
theorem axis_inf {o : F64Order (F64 lib)} (ho : IsF64Order o) {edges : List (Fin n × Fin n)} {x : Fin n → F64 lib}
    (hx : ∀ v ∈ ends edges, fin (x v) ∨ x v = Flt.inf (f := .b64) false)
    (hone : ∃ v ∈ ends edges, fin (x v)) (hflat : WideOrFlat edges x) {c : F64 lib} {r : ℝ} (hc : Is c r) (hr : 0 < r)
    {mn mx : F64 lib} (hmn : mn = (ends edges).foldl (fun m v => o.min m (x v)) o.inf)
    (hmx : mx = (ends edges).foldl (fun m v => o.max m (x v)) (-o.inf)) :
    fin mn ∧ NonNegOrInf (c / (mx - mn)) ∧
    ((∃ v ∈ ends edges, x v = Flt.inf (f := .b64) false) → Is (c / (mx - mn)) 0) := by
  have e1 : o.inf = Flt.inf (f := .b64) false := ho.inf
  have e2 : -o.inf = Flt.inf (f := .b64) true := by rw [e1]; rfl
  rw [e1] at hmn
  rw [e2] at hmx
  obtain ⟨a1, ⟨a, ha, fa, ea⟩, a3⟩ : fin mn ∧ (∃ v ∈ ends edges, fin (x v) ∧ mn = x v) ∧
      ∀ v ∈ ends edges, fin (x v) → val mn ≤ val (x v) := by
    subst hmn
    exact fold_min_finite (f := .b64) ho x (ends edges) (fun v hv => (hx v hv).imp_right Or.inr) hone
  have hinf : (∃ v ∈ ends edges, x v = Flt.inf (f := .b64) false) → Is (c / (mx - mn)) 0 := by
    intro h
    refine scale_inf hc hr a1 ?_
    subst hmx
    exact fold_max_inf (f := .b64) ho x (ends edges) h
  refine ⟨a1, ?_, hinf⟩
  by_cases h : ∃ v ∈ ends edges, x v = Flt.inf (f := .b64) false
  · exact Or.inr ⟨(hinf h).1, (hinf h).2.ge⟩
  · have hx' : ∀ v ∈ ends edges, fin (x v) := fun v hv => (hx v hv).resolve_right fun k => h ⟨v, hv, k⟩
    obtain ⟨b1, ⟨b, hb, fb, eb⟩, b3⟩ : fin mx ∧ (∃ v ∈ ends edges, fin (x v) ∧ mx = x v) ∧
        ∀ v ∈ ends edges, fin (x v) → val (x v) ≤ val mx := by
      subst hmx
      exact fold_max_finite (f := .b64) ho x (ends edges) (fun v hv => Or.inl (hx' v hv)) hone
    refine scale_finite hc hr a1 b1 (by rw [ea]; exact b3 a ha fa) fun e => ?_
    rcases hflat with ⟨v, hv, v', hv', fv, fv', hne⟩ | h
    · refine absurd (le_antisymm ?_ ?_) hne
      · exact (b3 v hv fv).trans (e.symm.le.trans (a3 v' hv' fv'))
      · exact (b3 v' hv' fv').trans (e.symm.le.trans (a3 v hv fv))
    · rw [ea, eb]; exact h b hb a ha fb fa

/-- With scale zero finite coordinates are drawn at 5 and infinite ones as NaN. -/
theorem zero_scale {p m σ : F64 lib} (hm : fin m) (hσ : Is σ 0) :
    (fin p → Is (p * σ + (-m * σ + Scalar.lit 5)) 5) ∧
    (p = Flt.inf (f := .b64) false → p * σ + (-m * σ + Scalar.lit 5) = Flt.nan (f := .b64)) := by
  constructor
  · intro hp
    exact (Is.mul_zero (r := val p) ⟨hp, rfl⟩ hσ).zero_add ((Is.mul_zero (Is.neg (r := val m) ⟨hm, rfl⟩) hσ).zero_add f64_lit_five)
  · rintro rfl
    show Flt.add (Flt.mul (.inf false) σ) _ = _
    obtain ⟨h1, h2⟩ := hσ
    rcases σ with ⟨s, x, hx⟩ | s | _
    · rw [Flt.val_eq_zero] at h2
      simp [Flt.mul, h2, Flt.add]
    · exact absurd h1 id
    · exact absurd h1 id

/-- **C98**: one vertex with an infinite coordinate spoils the picture.  If the coordinates of the vertices used are
finite or `+inf`, each axis has a finite one, and one coordinate is `+inf`, then all finite coordinates, on both axes,
are drawn at 5: the picture collapses to the corner.  Infinite coordinates are drawn as NaN. -/
theorem c98_infinite {I : Type} [IntrinsicParameters (F64 lib) I] {o : F64Order (F64 lib)} (ho : IsF64Order o)
    (verts : Points WorldFrame (F64 lib) n) (cam : Camera (F64 lib) I) (edges : List (Fin n × Fin n))
    (px : Mat n 2 (F64 lib)) (hpx : px = (cam.worldToPixel verts).data)
    (hx : ∀ v ∈ ends edges, ∀ k, fin (px v k) ∨ px v k = Flt.inf (f := .b64) false)
    (hone : ∀ k, ∃ v ∈ ends edges, fin (px v k)) (hflat : ∀ k, WideOrFlat edges fun v => px v k)
    (hinf : ∃ k, ∃ v ∈ ends edges, px v k = Flt.inf (f := .b64) false) :
    ∃ X Y : Fin n → F64 lib, ∃ width radius : F64 lib, Is width 2 ∧ Is radius 5 ∧
      renderWireframe o verts (indices edges) cam = .ok (drawing X Y width radius edges) ∧
      ∀ v ∈ ends edges, (fin (px v 0) → Is (X v) 5) ∧ (fin (px v 1) → Is (Y v) 5) ∧
        (px v 0 = Flt.inf (f := .b64) false → X v = Flt.nan (f := .b64)) ∧
        (px v 1 = Flt.inf (f := .b64) false → Y v = Flt.nan (f := .b64)) := by
  obtain ⟨w, hr, e1, e2, e3, e4⟩ := render_drawing o verts cam edges
  rw [← hpx] at hr e1 e2 e3 e4
  obtain ⟨x1, x2, x3⟩ := axis_inf ho (x := fun v => px v 0) (fun v hv => hx v hv 0) (hone 0) (hflat 0) room_x
    (by norm_num) e1 e2
  obtain ⟨y1, y2, y3⟩ := axis_inf ho (x := fun v => px v 1) (fun v hv => hx v hv 1) (hone 1) (hflat 1) room_y
    (by norm_num) e3 e4
  have hσ : Is (scaleOf w) 0 := by
    refine zero_choice x2 y2 ?_ rfl
    obtain ⟨k, v, hv, h⟩ := hinf
    have hk : k = 0 ∨ k = 1 := by fin_cases k <;> simp
    rcases hk with rfl | rfl
    · exact Or.inl (x3 ⟨v, hv, h⟩)
    · exact Or.inr (y3 ⟨v, hv, h⟩)
  refine ⟨_, _, _, _, f64_lit_two, f64_lit_five, hr, fun v _ => ⟨?_, ?_, ?_, ?_⟩⟩
  · exact (zero_scale x1 hσ).1
  · exact (zero_scale y1 hσ).1
  · exact (zero_scale x1 hσ).2
  · exact (zero_scale y1 hσ).2

end rendering

section order
variable {f : Format}

open Classical in
/-- The documented `min` and `max` exist. -/
noncomputable def fltOrder (f : Format) : F64Order (Flt f) where
  inf := Flt.inf false
  min x y := if y = Flt.nan then x else if x = Flt.nan then y
    else if Flt.lt y x then y else x
  max x y := if y = Flt.nan then x else if x = Flt.nan then y
    else if Flt.lt x y then y else x

theorem lt_asymm' {x y : Flt f} (h : Flt.lt x y = true) : Flt.lt y x = false := by
  rcases x with _ | (_ | _) | _ <;> rcases y with _ | (_ | _) | _ <;> simp_all [Flt.lt]
  exact h.le

theorem lt_nan (x : Flt f) : Flt.lt x .nan = false := by cases x <;> rfl

theorem nan_lt (x : Flt f) : Flt.lt .nan x = false := by cases x <;> rfl

theorem fltOrder_isF64Order : IsF64Order (fltOrder f) where
  inf := rfl
  min_nan_left y := by
    simp only [fltOrder]
    split_ifs <;> simp_all
  min_nan_right x := by
    simp [fltOrder]
  min_or x y := by
    simp only [fltOrder]
    split_ifs <;> simp
  min_left x y := by
    simp only [fltOrder]
    split_ifs with h1 h2 h3
    · exact NotAbove.refl x
    · rw [h2]; exact nan_lt y
    · exact lt_asymm' h3
    · exact NotAbove.refl x
  min_right x y := by
    simp only [fltOrder]
    split_ifs with h1 h2 h3
    · rw [h1]; exact nan_lt x
    · exact NotAbove.refl y
    · exact NotAbove.refl y
    · simpa using h3
  max_nan_left y := by
    simp only [fltOrder]
    split_ifs <;> simp_all
  max_nan_right x := by
    simp [fltOrder]
  max_or x y := by
    simp only [fltOrder]
    split_ifs <;> simp
  max_left x y := by
    simp only [fltOrder]
    split_ifs with h1 h2 h3
    · exact NotAbove.refl x
    · rw [h2]; exact lt_nan y
    · exact lt_asymm' h3
    · exact NotAbove.refl x
  max_right x y := by
    simp only [fltOrder]
    split_ifs with h1 h2 h3
    · rw [h1]; exact lt_nan x
    · exact NotAbove.refl y
    · exact NotAbove.refl y
    · simpa using h3

end order


section nonvacuity
variable {lib : Libm Format.b64}

/-- A camera that is not rotated and maps `(x, y, z)` to the pixel `(x, y)`. -/
noncomputable def plainCamera : Camera (F64 lib) (IntrinsicParametersOrthographic (F64 lib)) :=
  ⟨.ofParams ⟨Scalar.lit 1, Scalar.lit 1, Scalar.lit 0, Scalar.lit 0⟩,
    ExtrinsicParameters.fromRotationAndCamcenter ⟨1, 0, 0, 0⟩ fun _ => 0⟩

theorem plainCamera_pixel {n : ℕ} (verts : Points WorldFrame (F64 lib) n) (i : Fin n) {r : Fin 3 → ℝ}
    (h : ∀ a, Is (verts.data i a) (r a)) :
    Is ((plainCamera.worldToPixel verts).data i 0) (r 0) ∧ Is ((plainCamera.worldToPixel verts).data i 1) (r 1) := by
  have hq : Quat.IsIdentity (⟨1, 0, 0, 0⟩ : Quat (F64 lib)) := ⟨is_one, is_zero, is_zero, is_zero⟩
  have hc : ∀ a, Is (((ExtrinsicParameters.fromRotationAndCamcenter ⟨1, 0, 0, 0⟩ fun _ => 0).worldToCamera
      verts).data i a) (r a) := by
    intro a
    rw [worldToCamera_data]
    refine (identity_rotate hq h a).add_zero ?_
    have := identity_translation hq (c := fun _ => 0) (r := fun _ => 0) (fun _ => is_zero) a
    rw [neg_zero] at this
    exact this
  show Is (((IntrinsicParametersOrthographic.ofParams _).cameraToPixel _).data i 0) (r 0) ∧
    Is (((IntrinsicParametersOrthographic.ofParams _).cameraToPixel _).data i 1) (r 1)
  rw [ortho_cameraToPixel]
  exact ⟨((hc 0).mul_one is_lit_one).add_zero is_lit_zero, ((hc 1).mul_one is_lit_one).add_zero is_lit_zero⟩

/-- Non-vacuity of `c98_rendering`: a triangle with a right angle. -/
example : ∃ verts : Points WorldFrame (F64 lib) 3, ∃ px : Mat 3 2 (F64 lib),
    px = ((plainCamera (lib := lib)).worldToPixel verts).data ∧
    let edges : List (Fin 3 × Fin 3) := [(0, 1), (1, 2), (2, 0)]
    (∀ v ∈ ends edges, ∀ k, Flt.Bounded (f := .b64) 2 (px v k) ∨ px v k = Flt.nan (f := .b64)) ∧
    (∀ k, ∃ v ∈ ends edges, Flt.isFinite (f := .b64) (px v k)) ∧
    (∀ k, WideOrFlat edges fun v => px v k) ∧
    ∃ k, ∃ v ∈ ends edges, ∃ v' ∈ ends edges, Flt.isFinite (f := .b64) (px v k) ∧ Flt.isFinite (f := .b64) (px v' k) ∧
      (2 : ℝ) ≤ 1 * (Flt.val (f := .b64) (px v k) - Flt.val (f := .b64) (px v' k)) := by
  refine ⟨⟨![![0, 0, 1], ![Scalar.lit 2, 0, 1], ![0, 1, 1]]⟩, _, rfl, ?_⟩
  intro edges
  have h0 := plainCamera_pixel (lib := lib) ⟨![![0, 0, 1], ![Scalar.lit 2, 0, 1], ![0, 1, 1]]⟩ 0 (r := ![0, 0, 1])
    (by intro a; fin_cases a; exacts [is_zero, is_zero, is_one])
  have h1 := plainCamera_pixel (lib := lib) ⟨![![0, 0, 1], ![Scalar.lit 2, 0, 1], ![0, 1, 1]]⟩ 1 (r := ![2, 0, 1])
    (by intro a; fin_cases a; exacts [f64_lit_two, is_zero, is_one])
  have h2 := plainCamera_pixel (lib := lib) ⟨![![0, 0, 1], ![Scalar.lit 2, 0, 1], ![0, 1, 1]]⟩ 2 (r := ![0, 1, 1])
    (by intro a; fin_cases a; exacts [is_zero, is_one, is_one])
  generalize ((plainCamera (lib := lib)).worldToPixel _).data = px at *
  simp only [Matrix.cons_val_zero, Matrix.cons_val_one] at h0 h1 h2
  have b : ∀ {x : F64 lib} {r : ℝ}, Is x r → |r| ≤ 2 → Flt.Bounded (f := .b64) 2 x := fun h k => ⟨h.1, by rw [h.2]; exact k⟩
  have m0 : (0 : Fin 3) ∈ ends edges := by simp [edges, ends]
  have m1 : (1 : Fin 3) ∈ ends edges := by simp [edges, ends]
  have m2 : (2 : Fin 3) ∈ ends edges := by simp [edges, ends]
  refine ⟨?_, ?_, ?_, 0, 1, m1, 0, m0, h1.1.1, h0.1.1, ?_⟩
  · intro v _ k
    left
    fin_cases v <;> fin_cases k
    exacts [b h0.1 (by norm_num), b h0.2 (by norm_num), b h1.1 (by norm_num), b h1.2 (by norm_num),
      b h2.1 (by norm_num), b h2.2 (by norm_num)]
  · intro k
    refine ⟨0, m0, ?_⟩
    fin_cases k
    exacts [h0.1.1, h0.2.1]
  · intro k
    left
    fin_cases k
    · exact ⟨1, m1, 0, m0, h1.1.1, h0.1.1, by
        show Flt.val (f := .b64) (px 1 0) ≠ Flt.val (f := .b64) (px 0 0)
        rw [h1.1.2, h0.1.2]; norm_num⟩
    · exact ⟨2, m2, 0, m0, h2.2.1, h0.2.1, by
        show Flt.val (f := .b64) (px 2 1) ≠ Flt.val (f := .b64) (px 0 1)
        rw [h2.2.2, h0.2.2]; norm_num⟩
  · rw [h1.1.2, h0.1.2]; norm_num

/-- Non-vacuity of `c98_single_point`: an edge seen along its direction. -/
example : ∃ verts : Points WorldFrame (F64 lib) 2, ∀ v ∈ ends [((0 : Fin 2), (1 : Fin 2))],
    Is (((plainCamera (lib := lib)).worldToPixel verts).data v 0) 1 ∧
    Is (((plainCamera (lib := lib)).worldToPixel verts).data v 1) 2 := by
  refine ⟨⟨![![1, Scalar.lit 2, 1], ![1, Scalar.lit 2, Scalar.lit 2]]⟩, fun v _ => ?_⟩
  fin_cases v
  · exact plainCamera_pixel (lib := lib) _ 0 (r := ![1, 2, 1])
      (by intro a; fin_cases a; exacts [is_one, f64_lit_two, is_one])
  · exact plainCamera_pixel (lib := lib) _ 1 (r := ![1, 2, 2])
      (by intro a; fin_cases a; exacts [is_one, f64_lit_two, f64_lit_two])

/-- Non-vacuity of `c98_infinite`: two vertices, the second one with an infinite first coordinate, for a camera that
maps all points to the same two pixels. -/
example : ∃ px : Mat 2 2 (F64 lib), ∃ _i : IntrinsicParameters (F64 lib) Unit, ∃ verts : Points WorldFrame (F64 lib) 2,
    ∃ cam : Camera (F64 lib) Unit, px = (cam.worldToPixel verts).data ∧
    let edges : List (Fin 2 × Fin 2) := [(0, 1)]
    (∀ v ∈ ends edges, ∀ k, Flt.isFinite (f := .b64) (px v k) ∨ px v k = Flt.inf (f := .b64) false) ∧
    (∀ k, ∃ v ∈ ends edges, Flt.isFinite (f := .b64) (px v k)) ∧ (∀ k, WideOrFlat edges fun v => px v k) ∧
    ∃ k, ∃ v ∈ ends edges, px v k = Flt.inf (f := .b64) false := by
  let px : Mat 2 2 (F64 lib) := ![![1, 1], ![Flt.inf (f := .b64) false, 1]]
  have hone : Flt.isFinite (f := .b64) (1 : F64 lib) := is_one.1
  refine ⟨px, { (inferInstance : IntrinsicParameters (F64 lib) (IntrinsicParametersOrthographic (F64 lib))) with
      pixelToCamera := fun _ p => plainCamera.intrinsics.pixelToCamera p
      cameraToPixel := fun {n} _ _ => ⟨fun j k => px (if j.val = 0 then 0 else 1) k⟩ },
    ⟨fun _ _ => 0⟩, ⟨(), plainCamera.extrinsics⟩, ?_, ?_⟩
  · funext j k
    fin_cases j <;> rfl
  intro edges
  have m0 : (0 : Fin 2) ∈ ends edges := by simp [edges, ends]
  have m1 : (1 : Fin 2) ∈ ends edges := by simp [edges, ends]
  refine ⟨?_, ?_, ?_, 0, 1, m1, rfl⟩
  · intro v _ k
    fin_cases v <;> fin_cases k
    exacts [Or.inl hone, Or.inl hone, Or.inr rfl, Or.inl hone]
  · intro k
    refine ⟨0, m0, ?_⟩
    fin_cases k <;> exact hone
  · intro k
    right
    intro v _ v' _ h h'
    fin_cases k <;> fin_cases v <;> fin_cases v' <;> first | rfl | exact absurd h id | exact absurd h' id

end nonvacuity

end CamGeom
