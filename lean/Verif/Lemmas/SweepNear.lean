import Verif.Lemmas.GivensNear

/-!
# A QR step of nalgebra's eigenvector iteration in floating point
-/

namespace CamGeom
namespace SvdNear
open Matrix Householder
open Svd3 hiding Near

variable {R : Type} [Scalar R] {fl : Rounding R} {r : RoundingRange fl}

/-- The matrices considered: symmetric, with entries up to 1, almost nonnegative, and no two orthogonal directions are
both shortened much. -/
structure GramNear (S : Matrix (Fin 3) (Fin 3) ℝ) : Prop where
  symm : S.transpose = S
  entry : ∀ a b, |S a b| ≤ 1000001 / 1000000
  nonneg : ∀ x : V3 ℝ, x ⬝ᵥ x = 1 → -(1 / 10 ^ 9) ≤ bil S x x
  big : ∀ u v w, Frame u v w → 4 / 10 ≤ bil S u u + bil S v v

section Bounds
variable {S : Matrix (Fin 3) (Fin 3) ℝ} {ε : ℝ} {q : Fin 3 → ℕ → R} {u v w : V3 ℝ} {d0 d1 d2 o0 o1 o2 : ℝ}

/-- Bounds of the entries. -/
structure Bounds (x0 x1 x2 y0 y1 y2 : ℝ) : Prop where
  d0 : |x0| ≤ 4
  d1 : |x1| ≤ 4
  d2 : |x2| ≤ 4
  o0 : |y0| ≤ 4
  o1 : |y1| ≤ 4
  o2 : |y2| ≤ 4
  low01 : 39 / 100 ≤ |x1| + |x0|
  low12 : 39 / 100 ≤ |x2| + |x1|
  high01 : |x1| + |x0| ≤ 30001 / 10000
  high12 : |x2| + |x1| ≤ 30001 / 10000

theorem bounds (g : GramNear S) (h : Shadow fl S ε q u v w d0 d1 d2 o0 o1 o2) (hε : ε ≤ 1 / 10 ^ 9) :
    Bounds d0 d1 d2 o0 o1 o2 := by
  obtain ⟨b0, b1, b2, b3, b4, b5⟩ := h.bils
  have f := h.frame
  have n0 := g.nonneg u f.uu
  have n1 := g.nonneg v f.vv
  have n2 := g.nonneg w f.ww
  have g01 := g.big u v w f
  have g12 := g.big v w u f.rotate
  have tr := f.trace S
  have t0 := (abs_le.1 (g.entry 0 0)).2
  have t1 := (abs_le.1 (g.entry 1 1)).2
  have t2 := (abs_le.1 (g.entry 2 2)).2
  have a0 := abs_le.1 (bil_abs_le f.uu f.uu g.entry)
  have a1 := abs_le.1 (bil_abs_le f.vv f.vv g.entry)
  have a2 := abs_le.1 (bil_abs_le f.ww f.ww g.entry)
  have a3 := abs_le.1 (bil_abs_le f.uu f.vv g.entry)
  have a4 := abs_le.1 (bil_abs_le f.vv f.ww g.entry)
  have a5 := abs_le.1 (bil_abs_le f.uu f.ww g.entry)
  rw [abs_le] at b0 b1 b2 b3 b4 b5
  have c0 : |d0| ≤ d0 + 1 / 10 ^ 7 := abs_le.2 ⟨by linarith, by linarith⟩
  have c1 : |d1| ≤ d1 + 1 / 10 ^ 7 := abs_le.2 ⟨by linarith, by linarith⟩
  have c2 : |d2| ≤ d2 + 1 / 10 ^ 7 := abs_le.2 ⟨by linarith, by linarith⟩
  have e0 := le_abs_self d0
  have e1 := le_abs_self d1
  have e2 := le_abs_self d2
  constructor
  · linarith
  · linarith
  · linarith
  · rw [abs_le]; constructor <;> linarith
  · rw [abs_le]; constructor <;> linarith
  · rw [abs_le]; constructor <;> linarith
  · linarith
  · linarith
  · linarith
  · linarith

/-- The computed basis is bounded. -/
theorem basis_le (h : Shadow fl S ε q u v w d0 d1 d2 o0 o1 o2) (hε : ε ≤ 1 / 10 ^ 9) (a : Fin 3) (c : ℕ) (hc : c < 3) :
    |fl.val (q a c)| ≤ 2 := by
  obtain ⟨n0, n1, n2⟩ := h.near a
  obtain ⟨l0, l1, l2⟩ := h.frame.le_one a
  have : c = 0 ∨ c = 1 ∨ c = 2 := by omega
  rcases this with rfl | rfl | rfl
  · have := abs_sub_abs_le_abs_sub (fl.val (q a 0)) (u a)
    linarith
  · have := abs_sub_abs_le_abs_sub (fl.val (q a 1)) (v a)
    linarith
  · have := abs_sub_abs_le_abs_sub (fl.val (q a 2)) (w a)
    linarith

end Bounds

/-- New first diagonal entry of a rotated 2x2 block. -/
def rotI (g : Givens R) (mii mjj mij : R) : R :=
  (g.c * g.c * mii + g.s * g.s * mjj) - g.c * g.s * Scalar.lit 2 * mij

/-- New second diagonal entry of a rotated 2x2 block. -/
def rotJ (g : Givens R) (mii mjj mij : R) : R :=
  (g.s * g.s * mii + g.c * g.c * mjj) + g.c * g.s * Scalar.lit 2 * mij

/-- New off-diagonal entry of a rotated 2x2 block. -/
def rotO (g : Givens R) (mii mjj mij : R) : R :=
  g.c * g.s * (mii - mjj) + mij * (g.c * g.c - g.s * g.s)

theorem rot_near (hF : Fine r) {g : Givens R} {C S : ℝ} (h : RotNear fl g C S) {a b o : R} (ha : fl.isFinite a)
    (hb : fl.isFinite b) (ho : fl.isFinite o) (hA : |fl.val a| ≤ 4) (hB : |fl.val b| ≤ 4) (hO : |fl.val o| ≤ 4) :
    Near fl 1 16 570 (rotI g a b o) (C * C * fl.val a + S * S * fl.val b - C * S * 2 * fl.val o) ∧
    Near fl 1 16 570 (rotJ g a b o) (S * S * fl.val a + C * C * fl.val b + C * S * 2 * fl.val o) ∧
    Near fl 1 16 570 (rotO g a b o) (C * S * (fl.val a - fl.val b) + fl.val o * (C * C - S * S)) := by
  have na := Near.exact1 ha hA
  have nb := Near.exact1 hb hB
  have no := Near.exact1 ho hO
  have cc := hF.mul 1 31 h.c h.c
  have ss := hF.mul 1 31 h.s h.s
  have cs := hF.mul 1 31 h.c h.s
  have b2 := hF.mul 8 275 (hF.mul 2 66 cs (Near.lit_two fl)) no
  refine ⟨?_, ?_, ?_⟩
  · exact hF.sub 16 570 (hF.add 8 270 (hF.mul 4 130 cc na) (hF.mul 4 130 ss nb)) b2
  · exact hF.add 16 570 (hF.add 8 270 (hF.mul 4 130 ss na) (hF.mul 4 130 cc nb)) b2
  · exact hF.add 16 570 (hF.mul 8 270 cs (hF.sub 8 8 na nb)) (hF.mul 8 275 no (hF.sub 2 65 cc ss))

theorem RotNear.inv (r : RoundingRange fl) {g : Givens R} {C S : ℝ} (h : RotNear fl g C S) :
    RotNear fl g.inverse C (-S) :=
  ⟨by linarith [h.one], h.c, h.s.neg r⟩

/-- Two rotated columns of the basis. -/
theorem qrot_near (hF : Fine r) {g : Givens R} {C S : ℝ} (h : RotNear fl g C S) {x y : R} (hx : fl.isFinite x)
    (hy : fl.isFinite y) (hX : |fl.val x| ≤ 2) (hY : |fl.val y| ≤ 2) :
    Near fl 1 4 70 (x * g.c + y * g.s) (fl.val x * C + fl.val y * S) ∧
    Near fl 1 4 70 (-g.s * x + y * g.c) (-S * fl.val x + fl.val y * C) := by
  have nx := Near.exact1 hx hX
  have ny := Near.exact1 hy hY
  exact ⟨hF.add 4 70 (hF.mul 2 32 nx h.c) (hF.mul 2 32 ny h.s),
    hF.add 4 70 (hF.mul 2 32 (h.s.neg r) nx) (hF.mul 2 32 ny h.c)⟩

theorem sweep_eq {x y : R} {t : State R} {g1 g2 : Givens R} {n1 n2 : R} (h1 : cancelY x y = some (g1, n1))
    (h2 : cancelY (rotO g1 (t.diag 0) (t.diag 1) (t.off 0)) (-g1.s * t.off 1) = some (g2, n2)) :
    (sweep 0 2 2 0 x y t).diag 0 = rotI g1 (t.diag 0) (t.diag 1) (t.off 0) ∧
    (sweep 0 2 2 0 x y t).diag 1 = rotI g2 (rotJ g1 (t.diag 0) (t.diag 1) (t.off 0)) (t.diag 2) (t.off 1 * g1.c) ∧
    (sweep 0 2 2 0 x y t).diag 2 = rotJ g2 (rotJ g1 (t.diag 0) (t.diag 1) (t.off 0)) (t.diag 2) (t.off 1 * g1.c) ∧
    (sweep 0 2 2 0 x y t).off 0 = n2 ∧
    (sweep 0 2 2 0 x y t).off 1 = rotO g2 (rotJ g1 (t.diag 0) (t.diag 1) (t.off 0)) (t.diag 2) (t.off 1 * g1.c) ∧
    (sweep 0 2 2 0 x y t).q = g2.inverse.rotateRows 1 (g1.inverse.rotateRows 0 t.q) := by
  unfold rotO at h2
  simp [sweep, h1, h2, rotI, rotJ, rotO, Function.update]

/-- A QR step. -/
theorem sweep_near (q : RoundingQr fl) (k : RoundingMore fl) (v : RoundingSvd fl) (hF : Fine r)
    {S : Matrix (Fin 3) (Fin 3) ℝ} (g : GramNear S) {ε : ℝ} (hε : ε + 10260 * fl.u ≤ 1 / 10 ^ 9) {t : State R}
    {u₁ u₂ u₃ : V3 ℝ}
    (h : Shadow fl S ε t.q u₁ u₂ u₃ (fl.val (t.diag 0)) (fl.val (t.diag 1)) (fl.val (t.diag 2)) (fl.val (t.off 0))
      (fl.val (t.off 1)) 0)
    (fd : ∀ i, i < 3 → fl.isFinite (t.diag i)) (fo : ∀ i, i < 2 → fl.isFinite (t.off i)) {x : R}
    (hx : fl.isFinite x) (hX : |fl.val x| ≤ 20) (l0 : 1 / 10 ^ 8 ≤ |fl.val (t.off 0)|)
    (l1 : 1 / 10 ^ 8 ≤ |fl.val (t.off 1)|) :
    ∃ v₁ v₂ v₃, Shadow fl S (ε + 10260 * fl.u) (sweep 0 2 2 0 x (t.off 0) t).q v₁ v₂ v₃
        (fl.val ((sweep 0 2 2 0 x (t.off 0) t).diag 0)) (fl.val ((sweep 0 2 2 0 x (t.off 0) t).diag 1))
        (fl.val ((sweep 0 2 2 0 x (t.off 0) t).diag 2)) (fl.val ((sweep 0 2 2 0 x (t.off 0) t).off 0))
        (fl.val ((sweep 0 2 2 0 x (t.off 0) t).off 1)) 0 ∧
      (∀ i, i < 3 → fl.isFinite ((sweep 0 2 2 0 x (t.off 0) t).diag i)) ∧
      ∀ i, i < 2 → fl.isFinite ((sweep 0 2 2 0 x (t.off 0) t).off i) := by
  have hu := hF.hu
  have hu' := hF.u_le
  have hu0 := fl.u_nonneg
  have B := bounds g h (by linarith)
  have fd0 := fd 0 (by norm_num)
  have fd1 := fd 1 (by norm_num)
  have fd2 := fd 2 (by norm_num)
  have fo0 := fo 0 (by norm_num)
  have fo1 := fo 1 (by norm_num)
  have bq := basis_le h (by linarith)
  -- the first rotation
  obtain ⟨g1, n1, C1, S1, N1, e1, r1, -, -, hS1, -⟩ := cancelY_near q k v hF hx fo0 hX (B.o0.trans (by norm_num))
    (le_trans (by norm_num) l0)
  obtain ⟨I1, J1, O1⟩ := rot_near hF r1 fd0 fd1 fo0 B.d0 B.d1 B.o0
  have no1 := Near.exact1 fo1 B.o1
  have bulge := hF.mul 4 62 (r1.s.neg r) no1
  have off1 := hF.mul 4 62 no1 r1.c
  have Q1 : ∀ a, _ := fun a => qrot_near hF (r1.inv r) (h.fin a 0 (by norm_num)) (h.fin a 1 (by norm_num))
    (bq a 0 (by norm_num)) (bq a 1 (by norm_num))
  have c570 : ∀ {x : R} {X m c : ℝ}, Near fl 1 m c x X → c ≤ 570 → |fl.val x - X| ≤ 570 * fl.u :=
    fun hx hc => hx.err1.trans (mul_le_mul_of_nonneg_right hc hu0)
  have z570 : ∀ X : ℝ, |X - X| ≤ 570 * fl.u := fun X => by rw [sub_self, abs_zero]; positivity
  have H1 := h.rot01 (δ := 570 * fl.u) r1.one (q' := g1.inverse.rotateRows 0 t.q)
    (fun a => ⟨(Q1 a).1.fin, (Q1 a).2.fin⟩) (fun a => by simp [Givens.rotateRows])
    (fun a => ⟨by
        have := c570 (Q1 a).1 (by norm_num)
        have e : fl.val (t.q a 0) * C1 + fl.val (t.q a 1) * -S1 = C1 * fl.val (t.q a 0) - S1 * fl.val (t.q a 1) := by ring
        rw [e] at this
        exact this, by
        have := c570 (Q1 a).2 (by norm_num)
        have e : - -S1 * fl.val (t.q a 0) + fl.val (t.q a 1) * C1 = S1 * fl.val (t.q a 0) + C1 * fl.val (t.q a 1) := by
          ring
        rw [e] at this
        exact this⟩)
    (c570 I1 le_rfl) (c570 J1 le_rfl) (z570 (fl.val (t.diag 2))) (c570 O1 le_rfl)
    (O1 := fl.val (t.off 1 * g1.c)) (by
      have := c570 off1 (by norm_num)
      rwa [mul_zero, add_zero, mul_comm C1])
    (O2 := fl.val (-g1.s * t.off 1)) (by
      have := c570 bulge (by norm_num)
      rwa [mul_zero, zero_sub, ← neg_mul])
  have B1 := bounds g H1 (by linarith)
  have bq1 := basis_le H1 (by linarith)
  -- the second rotation
  have lb : 1 / 10 ^ 20 ≤ |fl.val (-g1.s * t.off 1)| := by
    have m1 := (fl.mul bulge.fin).2.2
    have s1 : 3 / 10 ^ 10 ≤ |fl.val (-g1.s)| := by
      have h1 := (r1.s.neg r).err1
      have h2 := abs_sub_abs_le_abs_sub (-S1) (fl.val (-g1.s))
      rw [abs_sub_comm, abs_neg] at h2
      linarith
    have p1 : 3 / 10 ^ 10 * (1 / 10 ^ 8) ≤ |fl.val (-g1.s) * fl.val (t.off 1)| := by
      rw [abs_mul]; exact mul_le_mul s1 l1 (by norm_num) (abs_nonneg _)
    have h2 := abs_sub_abs_le_abs_sub (fl.val (-g1.s) * fl.val (t.off 1)) (fl.val (-g1.s * t.off 1))
    rw [abs_sub_comm] at h2
    have h3 : fl.u * (|fl.val (-g1.s) * fl.val (t.off 1)| + fl.ω) ≤
        1 / 10 ^ 7 * (|fl.val (-g1.s) * fl.val (t.off 1)| + 1 / 10 ^ 100) :=
      mul_le_mul hu (by linarith [hF.ω_le']) (add_nonneg (abs_nonneg _) fl.ω_nonneg) (by norm_num)
    have h4 : (1 : ℝ) / 10 ^ 100 ≤ 1 / 10 ^ 20 := by norm_num
    linarith
  obtain ⟨g2, n2, C2, S2, N2, e2, r2, hN2, hz2, -, hn2, -⟩ := cancelY_near q k v hF O1.fin bulge.fin
    (B1.o0.trans (by norm_num)) (B1.o2.trans (by norm_num)) lb
  obtain ⟨I2, J2, O2⟩ := rot_near hF r2 J1.fin fd2 off1.fin B1.d1 B1.d2 B1.o1
  have Q2 : ∀ a, _ := fun a => qrot_near hF (r2.inv r) (H1.fin a 1 (by norm_num)) (H1.fin a 2 (by norm_num))
    (bq1 a 1 (by norm_num)) (bq1 a 2 (by norm_num))
  set q1 := g1.inverse.rotateRows 0 t.q with hq1
  have H2 := H1.rot12 (δ := 570 * fl.u) r2.one (q' := g2.inverse.rotateRows 1 q1)
    (fun a => ⟨(Q2 a).1.fin, (Q2 a).2.fin⟩) (fun a => by simp [Givens.rotateRows])
    (fun a => ⟨by
        have := c570 (Q2 a).1 (by norm_num)
        have e : fl.val (q1 a 1) * C2 + fl.val (q1 a 2) * -S2 = C2 * fl.val (q1 a 1) - S2 * fl.val (q1 a 2) := by ring
        rw [e] at this
        exact this, by
        have := c570 (Q2 a).2 (by norm_num)
        have e : - -S2 * fl.val (q1 a 1) + fl.val (q1 a 2) * C2 = S2 * fl.val (q1 a 1) + C2 * fl.val (q1 a 2) := by
          ring
        rw [e] at this
        exact this⟩)
    (z570 _) (c570 I2 le_rfl) (c570 J2 le_rfl)
    (O0 := fl.val n2) (by rw [hN2]; exact c570 hn2 (by norm_num)) (c570 O2 le_rfl)
    (O2 := 0) (by rw [hz2]; exact z570 0)
  obtain ⟨s1, s2, s3, s4, s5, s6⟩ := sweep_eq e1 e2
  rw [s1, s2, s3, s4, s5, s6]
  refine ⟨_, _, _, H2.mono (by linarith), ?_, ?_⟩
  · intro i hi
    have : i = 0 ∨ i = 1 ∨ i = 2 := by omega
    rcases this with rfl | rfl | rfl
    · rw [s1]; exact I1.fin
    · rw [s2]; exact I2.fin
    · rw [s3]; exact J2.fin
  · intro i hi
    have : i = 0 ∨ i = 1 := by omega
    rcases this with rfl | rfl
    · rw [s4]; exact hn2.fin
    · rw [s5]; exact O2.fin

end SvdNear
end CamGeom
