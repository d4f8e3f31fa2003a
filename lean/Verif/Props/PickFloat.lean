import Verif.Model.PickFloat
import Verif.Spec.PickFloat
import Verif.Props.PlaneFloat
import Mathlib.Tactic.NormNum

/-
  Intersections of rays and triangles in floating-point arithmetic, C111.
-/
set_option autoImplicit false
set_option linter.unusedSectionVars false

namespace Geom.Triangle.Props
open Geom.Float Geom.Triangle.Spec
open Clip (dotFl subFl)
open Plane (Ray)
open Plane.Spec (ulp)

variable {p : ℕ} {emin : ℤ} {fl : ℚ → ℚ}

/-! ### Exact results on a grid -/

theorem _root_.Geom.Triangle.Spec.OnGrid.fix (hf : IsRounding p emin fl) (hp : 1 ≤ p) {e : ℤ} {n : ℕ} {x : ℚ} (h : OnGrid e n x) (he : emin ≤ e) (hn : n ≤ 2 ^ p) : fl x = x := by
  obtain ⟨m, h1, rfl⟩ := h
  exact hf.fix _ (mem_of_le hp he (h1.trans (by exact_mod_cast hn)))

theorem _root_.Geom.Triangle.Spec.OnGrid.sub {e : ℤ} {n k : ℕ} {x y : ℚ} (hx : OnGrid e n x) (hy : OnGrid e k y) : OnGrid e (n + k) (x - y) := by
  obtain ⟨a, ha, rfl⟩ := hx
  obtain ⟨b, hb, rfl⟩ := hy
  refine ⟨a - b, (abs_sub a b).trans (by push_cast; linarith), by push_cast; ring⟩

theorem _root_.Geom.Triangle.Spec.OnGrid.add {e : ℤ} {n k : ℕ} {x y : ℚ} (hx : OnGrid e n x) (hy : OnGrid e k y) : OnGrid e (n + k) (x + y) := by
  obtain ⟨a, ha, rfl⟩ := hx
  obtain ⟨b, hb, rfl⟩ := hy
  refine ⟨a + b, (abs_add_le a b).trans (by push_cast; linarith), by push_cast; ring⟩

theorem _root_.Geom.Triangle.Spec.OnGrid.mul {e f : ℤ} {n k : ℕ} {x y : ℚ} (hx : OnGrid e n x) (hy : OnGrid f k y) : OnGrid (e + f) (n * k) (x * y) := by
  obtain ⟨a, ha, rfl⟩ := hx
  obtain ⟨b, hb, rfl⟩ := hy
  refine ⟨a * b, ?_, by push_cast; rw [zpow_add₀ (by norm_num)]; ring⟩
  rw [abs_mul]
  push_cast
  exact mul_le_mul ha hb (abs_nonneg _) (by positivity)

theorem _root_.Geom.Triangle.Spec.OnGrid.neg {e : ℤ} {n : ℕ} {x : ℚ} (hx : OnGrid e n x) : OnGrid e n (-x) := by
  obtain ⟨a, ha, rfl⟩ := hx
  exact ⟨-a, by rwa [abs_neg], by push_cast; ring⟩

theorem sub_grid (hf : IsRounding p emin fl) (hp : 1 ≤ p) {e : ℤ} {n k : ℕ} {a b : V3 ℚ} (ha : GridV e n a) (hb : GridV e k b) (he : emin ≤ e)
    (hn : n + k ≤ 2 ^ p) : subFl fl a b = a - b ∧ GridV e (n + k) (a - b) := by
  have h := And.intro (ha.1.sub hb.1) (And.intro (ha.2.1.sub hb.2.1) (ha.2.2.sub hb.2.2))
  refine ⟨?_, h⟩
  unfold subFl
  rw [OnGrid.fix hf hp h.1 he hn, OnGrid.fix hf hp h.2.1 he hn, OnGrid.fix hf hp h.2.2 he hn]
  rfl

theorem cross_grid (hf : IsRounding p emin fl) (hp : 1 ≤ p) {e f : ℤ} {n k : ℕ} {a b : V3 ℚ} (ha : GridV e n a) (hb : GridV f k b) (he : emin ≤ e + f)
    (hn : n * k + n * k ≤ 2 ^ p) : crossFl fl a b = V3.cross a b ∧ GridV (e + f) (n * k + n * k) (V3.cross a b) := by
  obtain ⟨a1, a2, a3⟩ := ha
  obtain ⟨b1, b2, b3⟩ := hb
  have h : GridV (e + f) (n * k + n * k) (V3.cross a b) :=
    ⟨(a2.mul b3).sub (a3.mul b2), (a3.mul b1).sub (a1.mul b3), (a1.mul b2).sub (a2.mul b1)⟩
  refine ⟨?_, h⟩
  have hn' : n * k ≤ 2 ^ p := by omega
  unfold crossFl
  rw [OnGrid.fix hf hp (a2.mul b3) he hn', OnGrid.fix hf hp (a3.mul b2) he hn', OnGrid.fix hf hp (a3.mul b1) he hn',
    OnGrid.fix hf hp (a1.mul b3) he hn', OnGrid.fix hf hp (a1.mul b2) he hn', OnGrid.fix hf hp (a2.mul b1) he hn']
  have h1 := OnGrid.fix hf hp h.1 he hn
  have h2 := OnGrid.fix hf hp h.2.1 he hn
  have h3 := OnGrid.fix hf hp h.2.2 he hn
  simp only [V3.cross] at h1 h2 h3 ⊢
  rw [h1, h2, h3]

theorem dot_grid (hf : IsRounding p emin fl) (hp : 1 ≤ p) {e f : ℤ} {n k : ℕ} {a b : V3 ℚ} (ha : GridV e n a) (hb : GridV f k b) (he : emin ≤ e + f)
    (hn : 3 * (n * k) ≤ 2 ^ p) : dotFl fl a b = V3.dot a b ∧ OnGrid (e + f) (3 * (n * k)) (V3.dot a b) := by
  obtain ⟨a1, a2, a3⟩ := ha
  obtain ⟨b1, b2, b3⟩ := hb
  have h2 := (a1.mul b1).add (a2.mul b2)
  have h3 := h2.add (a3.mul b3)
  have hn' : n * k ≤ 2 ^ p := by omega
  refine ⟨?_, ?_⟩
  · unfold dotFl V3.dot
    rw [OnGrid.fix hf hp (a1.mul b1) he hn', OnGrid.fix hf hp (a2.mul b2) he hn', OnGrid.fix hf hp (a3.mul b3) he hn',
      OnGrid.fix hf hp h2 he (by omega), OnGrid.fix hf hp h3 he (by omega)]
  · obtain ⟨m, hm, hm'⟩ := h3
    exact ⟨m, hm.trans (by push_cast; linarith), hm'⟩

/-! ### Errors of roundings -/

theorem _root_.Geom.Triangle.Spec.Mult.round (hf : IsRounding p emin fl) (hp : 1 ≤ p) {g : ℤ} {x : ℚ} (h : Mult g x) (hg : emin ≤ g) :
    |fl x - x| ≤ ulp p * |x| ∧ Mult g (fl x) := by
  obtain ⟨m, rfl⟩ := h
  have hu := Plane.Props.ulp_pos p
  have h2 := two_zpow_pos g
  rcases le_or_gt |m| (2 ^ p) with hm | hm
  · rw [hf.fix _ (mem_of_le hp hg hm), sub_self, abs_zero]
    exact ⟨by positivity, m, rfl⟩
  · have hb : (2 : ℚ) ^ ((p : ℤ) + g) ≤ |(m : ℚ) * 2 ^ g| := by
      rw [abs_mul, abs_of_pos h2, zpow_add₀ (by norm_num), zpow_natCast]
      exact mul_le_mul_of_nonneg_right (by exact_mod_cast hm.le) h2.le
    refine ⟨round_normal hf hp ((zpow_le_zpow_right₀ (by norm_num) (by omega)).trans hb), ?_⟩
    have hk : (2 : ℚ) ^ ((p : ℤ) + g) ∈ Floats p emin := by
      rw [zpow_add₀ (by norm_num), zpow_natCast]
      have := mem_of_le (p := p) (emin := emin) (k := 2 ^ p) (e := g) hp hg (by rw [abs_of_nonneg (by positivity)])
      exact_mod_cast this
    have hfl : (2 : ℚ) ^ ((p : ℤ) + g) ≤ |fl (m * 2 ^ g)| := by
      rcases le_abs.1 hb with h | h
      · exact le_abs.2 (Or.inl (by rw [← hf.fix _ hk]; exact hf.mono h))
      · refine le_abs.2 (Or.inr ?_)
        have : fl (m * 2 ^ g) ≤ fl (-2 ^ ((p : ℤ) + g)) := hf.mono (by linarith)
        rw [hf.fix _ (neg_mem hk)] at this
        linarith
    obtain ⟨j, hj⟩ := multiple_of_le (hf.mem _) hfl
    exact ⟨2 * j, by rw [hj, zpow_add_one₀ (by norm_num)]; push_cast; ring⟩

/-- `x` is an approximation of `X`, after `k` roundings in sequence, of a term of size `B`. -/
def App (p k : ℕ) (g : ℤ) (x X B : ℚ) : Prop := |x - X| ≤ ((1 + ulp p) ^ k - 1) * B ∧ |X| ≤ B ∧ Mult g x

theorem App.exact {g : ℤ} {x : ℚ} (h : Mult g x) : App p 0 g x x |x| := ⟨by simp, le_rfl, h⟩

theorem App.nonneg {k : ℕ} {g : ℤ} {x X B : ℚ} (h : App p k g x X B) : 0 ≤ B := (abs_nonneg _).trans h.2.1

theorem App.abs_le {k : ℕ} {g : ℤ} {x X B : ℚ} (h : App p k g x X B) : |x| ≤ (1 + ulp p) ^ k * B := by
  have := abs_add_le (x - X) X
  rw [sub_add_cancel] at this
  linarith [h.1, h.2.1]

theorem one_le_pow (p k : ℕ) : 1 ≤ (1 + ulp p) ^ k := one_le_pow₀ (by linarith [Plane.Props.ulp_pos p])

theorem App.mono {k l : ℕ} {g : ℤ} {x X B : ℚ} (h : App p k g x X B) (hkl : k ≤ l) : App p l g x X B := by
  refine ⟨h.1.trans (mul_le_mul_of_nonneg_right ?_ h.nonneg), h.2⟩
  have := pow_le_pow_right₀ (show 1 ≤ 1 + ulp p by linarith [Plane.Props.ulp_pos p]) hkl
  linarith

/-- One more rounding. -/
theorem App.round (hf : IsRounding p emin fl) (hp : 1 ≤ p) {k : ℕ} {g : ℤ} {x X B : ℚ} (hg : emin ≤ g) (h : App p k g x X B) :
    App p (k + 1) g (fl x) X B := by
  obtain ⟨r1, r2⟩ := Mult.round hf hp h.2.2 hg
  refine ⟨?_, h.2.1, r2⟩
  have h1 := h.abs_le
  have h2 := h.1
  have hu := Plane.Props.ulp_pos p
  calc |fl x - X| ≤ |fl x - x| + |x - X| := by have := abs_add_le (fl x - x) (x - X); rwa [sub_add_sub_cancel] at this
    _ ≤ ulp p * ((1 + ulp p) ^ k * B) + ((1 + ulp p) ^ k - 1) * B := add_le_add (r1.trans (mul_le_mul_of_nonneg_left h1 hu.le)) h2
    _ = _ := by ring

theorem App.neg {k : ℕ} {g : ℤ} {x X B : ℚ} (h : App p k g x X B) : App p k g (-x) (-X) B := by
  refine ⟨?_, by rw [abs_neg]; exact h.2.1, ?_⟩
  · rw [← abs_neg]
    have := h.1
    simpa [sub_eq_add_neg, add_comm] using this
  · obtain ⟨m, hm⟩ := h.2.2
    exact ⟨-m, by rw [hm]; push_cast; ring⟩

theorem App.add {k : ℕ} {g : ℤ} {x X A y Y B : ℚ} (hx : App p k g x X A) (hy : App p k g y Y B) : App p k g (x + y) (X + Y) (A + B) := by
  refine ⟨?_, (abs_add_le X Y).trans (add_le_add hx.2.1 hy.2.1), ?_⟩
  · have := abs_add_le (x - X) (y - Y)
    rw [show x + y - (X + Y) = x - X + (y - Y) by ring]
    linarith [hx.1, hy.1]
  · obtain ⟨a, ha⟩ := hx.2.2
    obtain ⟨b, hb⟩ := hy.2.2
    exact ⟨a + b, by rw [ha, hb]; push_cast; ring⟩

theorem App.sub {k : ℕ} {g : ℤ} {x X A y Y B : ℚ} (hx : App p k g x X A) (hy : App p k g y Y B) : App p k g (x - y) (X - Y) (A + B) := by
  rw [sub_eq_add_neg, sub_eq_add_neg]
  exact hx.add hy.neg

theorem App.mul {k l : ℕ} {g h : ℤ} {x X A y Y B : ℚ} (hx : App p k g x X A) (hy : App p l h y Y B) :
    App p (k + l) (g + h) (x * y) (X * Y) (A * B) := by
  refine ⟨?_, by rw [abs_mul]; exact mul_le_mul hx.2.1 hy.2.1 (abs_nonneg _) hx.nonneg, ?_⟩
  · have a := hx.abs_le
    have hk := one_le_pow p k
    have hl := one_le_pow p l
    calc |x * y - X * Y| = |x * (y - Y) + (x - X) * Y| := by congr 1; ring
      _ ≤ |x * (y - Y)| + |(x - X) * Y| := abs_add_le _ _
      _ ≤ (1 + ulp p) ^ k * A * (((1 + ulp p) ^ l - 1) * B) + ((1 + ulp p) ^ k - 1) * A * B := by
        rw [abs_mul, abs_mul]
        exact add_le_add (mul_le_mul a hy.1 (abs_nonneg _) (mul_nonneg (by linarith) hx.nonneg))
          (mul_le_mul hx.1 hy.2.1 (abs_nonneg _) (mul_nonneg (by linarith) hx.nonneg))
      _ = _ := by rw [pow_add]; ring
  · obtain ⟨a, ha⟩ := hx.2.2
    obtain ⟨b, hb⟩ := hy.2.2
    exact ⟨a * b, by rw [ha, hb, zpow_add₀ (by norm_num)]; push_cast; ring⟩

/-- A vector of approximations. -/
def AppV (p k : ℕ) (g : ℤ) (v V B : V3 ℚ) : Prop := App p k g v.x V.x B.x ∧ App p k g v.y V.y B.y ∧ App p k g v.z V.z B.z

def absV (v : V3 ℚ) : V3 ℚ := ⟨|v.x|, |v.y|, |v.z|⟩

def absCross (a b : V3 ℚ) : V3 ℚ := ⟨a.y * b.z + a.z * b.y, a.z * b.x + a.x * b.z, a.x * b.y + a.y * b.x⟩

theorem exactV {g : ℤ} {v : V3 ℚ} (h : MultV g v) : AppV p 0 g v v (absV v) := ⟨App.exact h.1, App.exact h.2.1, App.exact h.2.2⟩

theorem _root_.Geom.Triangle.Spec.Mult.sub {g : ℤ} {x y : ℚ} (hx : Mult g x) (hy : Mult g y) : Mult g (x - y) := by
  obtain ⟨a, rfl⟩ := hx
  obtain ⟨b, rfl⟩ := hy
  exact ⟨a - b, by push_cast; ring⟩

theorem sub_app (hf : IsRounding p emin fl) (hp : 1 ≤ p) {g : ℤ} (hg : emin ≤ g) {a b : V3 ℚ} (ha : MultV g a) (hb : MultV g b) :
    AppV p 1 g (subFl fl a b) (a - b) (absV (a - b)) :=
  ⟨(App.exact (ha.1.sub hb.1)).round hf hp hg, (App.exact (ha.2.1.sub hb.2.1)).round hf hp hg, (App.exact (ha.2.2.sub hb.2.2)).round hf hp hg⟩

theorem cross_app (hf : IsRounding p emin fl) (hp : 1 ≤ p) {k l : ℕ} {g h : ℤ} (hg : emin ≤ g + h) {a A S b B T : V3 ℚ} (ha : AppV p k g a A S)
    (hb : AppV p l h b B T) : AppV p (k + l + 2) (g + h) (crossFl fl a b) (V3.cross A B) (absCross S T) := by
  obtain ⟨a1, a2, a3⟩ := ha
  obtain ⟨b1, b2, b3⟩ := hb
  exact ⟨(((a2.mul b3).round hf hp hg).sub ((a3.mul b2).round hf hp hg)).round hf hp hg,
    (((a3.mul b1).round hf hp hg).sub ((a1.mul b3).round hf hp hg)).round hf hp hg,
    (((a1.mul b2).round hf hp hg).sub ((a2.mul b1).round hf hp hg)).round hf hp hg⟩

theorem dot_app (hf : IsRounding p emin fl) (hp : 1 ≤ p) {k l : ℕ} {g h : ℤ} (hg : emin ≤ g + h) {a A S b B T : V3 ℚ} (ha : AppV p k g a A S)
    (hb : AppV p l h b B T) : App p (k + l + 3) (g + h) (dotFl fl a b) (V3.dot A B) (V3.dot S T) := by
  obtain ⟨a1, a2, a3⟩ := ha
  obtain ⟨b1, b2, b3⟩ := hb
  exact ((((a1.mul b1).round hf hp hg).add ((a2.mul b2).round hf hp hg)).round hf hp hg |>.add
    (((a3.mul b3).round hf hp hg).mono (by omega))).round hf hp hg

/-! ### Results -/

section
variable (t : Tri ℚ) (r : Ray ℚ)

/-- The products of the code, exactly. -/
def eX : ℚ := V3.dot (t.b - r.origin) (V3.cross r.direction (t.c - r.origin))
def eY : ℚ := -V3.dot (t.a - r.origin) (V3.cross r.direction (t.c - r.origin))
def eZ : ℚ := V3.dot (t.a - r.origin) (V3.cross r.direction (t.b - r.origin))
def eN : ℚ := V3.dot (V3.cross (t.b - t.a) (t.c - t.a)) r.direction

/-- The products of the code, with roundings. -/
def fX (fl : ℚ → ℚ) : ℚ := dotFl fl (subFl fl t.b r.origin) (crossFl fl r.direction (subFl fl t.c r.origin))
def fY (fl : ℚ → ℚ) : ℚ := -dotFl fl (subFl fl t.a r.origin) (crossFl fl r.direction (subFl fl t.c r.origin))
def fZ (fl : ℚ → ℚ) : ℚ := dotFl fl (subFl fl t.a r.origin) (crossFl fl r.direction (subFl fl t.b r.origin))
def fN (fl : ℚ → ℚ) (v : V3 ℚ) : ℚ := dotFl fl (crossFl fl (subFl fl t.b t.a) (subFl fl t.c t.a)) v

theorem eq_exact : barycentric t r = if eX t r < 0 then none else if eY t r < 0 then none else if eZ t r < 0 then none else
    if eN t r ≥ 0 then none
    else if V3.dot (V3.cross (t.b - t.a) (t.c - t.a)) r.origin ≤ V3.dot (V3.cross (t.b - t.a) (t.c - t.a)) t.a then none
    else some ((1 / (eX t r + eY t r + eZ t r)) • ⟨eX t r, eY t r, eZ t r⟩) := rfl

theorem eq_float : barycentricFl fl t r = if fX t r fl < 0 then .ok none else if fY t r fl < 0 then .ok none else if fZ t r fl < 0 then .ok none else
    if fN t fl r.direction ≥ 0 then .ok none
    else if fN t fl r.origin ≤ fN t fl t.a then .ok none
    else if fl (fl (fX t r fl + fY t r fl) + fZ t r fl) = 0 then .ub
    else .ok (some ⟨fl (fX t r fl * fl (1 / fl (fl (fX t r fl + fY t r fl) + fZ t r fl))), fl (fY t r fl * fl (1 / fl (fl (fX t r fl + fY t r fl) + fZ t r fl))),
      fl (fZ t r fl * fl (1 / fl (fl (fX t r fl + fY t r fl) + fZ t r fl)))⟩) := rfl

theorem e_sum : eX t r + eY t r + eZ t r = -eN t r := by
  simp only [eX, eY, eZ, eN, V3.dot, V3.cross, V3.sub_x, V3.sub_y, V3.sub_z]
  ring
end

/-- The quotient of two multiples of a power of two, as the code computes it: by the reciprocal. -/
theorem quotient (hf : IsRounding p emin fl) (hp : 2 ≤ p) (he : emin ≤ -2 * p) {g : ℤ} {v s : ℚ} (hv : Mult g v) (hs : OnGrid g (2 ^ p) s) (hg : g ≤ 0)
    (h0 : 0 ≤ v) (h1 : 0 < s) : |fl (v * fl (1 / s)) - v / s| ≤ ((1 + ulp p) ^ 2 - 1) * (v / s) := by
  have hu := Plane.Props.ulp_pos p
  have hu1 : ulp p ≤ 1 / 2 := by
    have : (2 : ℚ) ^ (1 - (p : ℤ)) ≤ 2 ^ (-1 : ℤ) := zpow_le_zpow_right₀ (by norm_num) (by omega)
    unfold ulp
    norm_num at this ⊢
    exact this
  have h2g := two_zpow_pos g
  have hinv : (0 : ℚ) < 1 / s := by positivity
  have sle : s ≤ 2 ^ p * 2 ^ g := by
    obtain ⟨m, hm, rfl⟩ := hs
    exact mul_le_mul_of_nonneg_right (by exact_mod_cast (le_abs_self m).trans hm) h2g.le
  have low : (2 : ℚ) ^ (-(p : ℤ)) ≤ 2 ^ g / s := by
    rw [le_div_iff₀ h1, zpow_neg, zpow_natCast, inv_mul_le_iff₀ (by positivity)]
    exact sle
  have n1 := round_normal hf (by omega) (x := 1 / s) (by
    rw [abs_of_pos hinv]
    calc (2 : ℚ) ^ (emin + p - 1) ≤ 2 ^ (-(p : ℤ)) := zpow_le_zpow_right₀ (by norm_num) (by omega)
      _ ≤ 2 ^ g / s := low
      _ ≤ 1 / s := div_le_div_of_nonneg_right (zpow_le_one_of_nonpos₀ (by norm_num) hg) h1.le)
  rw [abs_of_pos hinv] at n1
  have n1' := abs_le.1 n1
  have flp : 1 / s * (1 / 2) ≤ fl (1 / s) := by
    have : 2 ^ (1 - (p : ℤ)) * (1 / s) ≤ 1 / 2 * (1 / s) := mul_le_mul_of_nonneg_right hu1 hinv.le
    linarith
  rcases h0.eq_or_lt with h | h
  · rw [← h]
    simp [hf.fix 0 ⟨0, emin, by simp, le_rfl, by simp⟩]
  · have vle : 2 ^ g ≤ v := by
      obtain ⟨m, rfl⟩ := hv
      have : (0 : ℚ) < m := by by_contra hc; rw [not_lt] at hc; have := mul_nonpos_of_nonpos_of_nonneg hc h2g.le; linarith
      have : 1 ≤ m := by exact_mod_cast this
      have : (1 : ℚ) ≤ m := by exact_mod_cast this
      nlinarith
    have pos : 0 < v * fl (1 / s) := mul_pos h (lt_of_lt_of_le (by positivity) flp)
    have n2 := round_normal hf (by omega) (x := v * fl (1 / s)) (by
      rw [abs_of_pos pos]
      calc (2 : ℚ) ^ (emin + p - 1) ≤ 2 ^ (-(p : ℤ) + -1) := zpow_le_zpow_right₀ (by norm_num) (by omega)
        _ = 2 ^ (-(p : ℤ)) * (1 / 2) := by rw [zpow_add₀ (by norm_num)]; norm_num
        _ ≤ 2 ^ g / s * (1 / 2) := mul_le_mul_of_nonneg_right low (by norm_num)
        _ = 2 ^ g * (1 / s * (1 / 2)) := by ring
        _ ≤ v * fl (1 / s) := mul_le_mul vle flp (by positivity) h.le)
    rw [abs_of_pos pos] at n2
    have e1 : |v * fl (1 / s) - v / s| ≤ ulp p * (v / s) := by
      rw [show v * fl (1 / s) - v / s = v * (fl (1 / s) - 1 / s) by ring, abs_mul, abs_of_pos h]
      calc v * |fl (1 / s) - 1 / s| ≤ v * (ulp p * (1 / s)) := mul_le_mul_of_nonneg_left n1 h.le
        _ = _ := by ring
    have e2 := abs_le.1 e1
    calc |fl (v * fl (1 / s)) - v / s| ≤ |fl (v * fl (1 / s)) - v * fl (1 / s)| + |v * fl (1 / s) - v / s| := by
          have := abs_add_le (fl (v * fl (1 / s)) - v * fl (1 / s)) (v * fl (1 / s) - v / s)
          rwa [sub_add_sub_cancel] at this
      _ ≤ ulp p * (v / s + ulp p * (v / s)) + ulp p * (v / s) :=
          add_le_add (n2.trans (mul_le_mul_of_nonneg_left (by linarith) hu.le)) e1
      _ = _ := by ring

/-- C111: if the coordinates are multiples of a power of two, and not too great (with `float` integers up to 88, or multiples of 1/4 up to
22, with `double` integers up to 70000), the result is that of exact arithmetic, and the coordinates have the error of two roundings. -/
theorem C111_exact (hf : IsRounding p emin fl) (hp : 2 ≤ p) (he : emin ≤ -2 * p) {e f : ℤ} {n k : ℕ} (t : Tri ℚ) (r : Ray ℚ) (ha : GridV e n t.a)
    (hb : GridV e n t.b) (hc : GridV e n t.c) (ho : GridV e n r.origin) (hd : GridV f k r.direction) (he0 : e ≤ 0) (hf0 : f ≤ 0)
    (h3e : emin ≤ 3 * e) (h2e : emin ≤ 2 * e + f) (hnk : 24 * (n * n * k) ≤ 2 ^ p) (hnn : 24 * (n * n * n) ≤ 2 ^ p) :
    (barycentric t r = none → barycentricFl fl t r = .ok none) ∧
    ∀ q, barycentric t r = some q → ∃ q', barycentricFl fl t r = .ok (some q') ∧ |q'.x - q.x| ≤ ((1 + ulp p) ^ 2 - 1) * q.x ∧
      |q'.y - q.y| ≤ ((1 + ulp p) ^ 2 - 1) * q.y ∧ |q'.z - q.z| ≤ ((1 + ulp p) ^ 2 - 1) * q.z := by
  have hp1 : 1 ≤ p := by omega
  have n1 : n ≤ n * n := Nat.le_mul_self n
  have n2 : n * n ≤ n * n * n := by rcases Nat.eq_zero_or_pos n with h | h; · simp [h]
                                    · exact Nat.le_mul_of_pos_right _ h
  have n3 : n * k ≤ n * n * k := Nat.mul_le_mul_right k n1
  obtain ⟨sa, ga⟩ := sub_grid hf hp1 ha ho (by omega) (by omega)
  obtain ⟨sb, gb⟩ := sub_grid hf hp1 hb ho (by omega) (by omega)
  obtain ⟨sc, gc⟩ := sub_grid hf hp1 hc ho (by omega) (by omega)
  obtain ⟨s1, g1⟩ := sub_grid hf hp1 hb ha (by omega) (by omega)
  obtain ⟨s2, g2⟩ := sub_grid hf hp1 hc ha (by omega) (by omega)
  have k1 : k * (n + n) + k * (n + n) = 4 * (n * k) := by ring
  have k2 : (n + n) * (n + n) + (n + n) * (n + n) = 8 * (n * n) := by ring
  obtain ⟨cc, gcc⟩ := cross_grid hf hp1 hd gc (by omega) (by omega)
  obtain ⟨cb, gcb⟩ := cross_grid hf hp1 hd gb (by omega) (by omega)
  obtain ⟨cn, gcn⟩ := cross_grid hf hp1 g1 g2 (by omega) (by omega)
  have k3 : 3 * ((n + n) * (k * (n + n) + k * (n + n))) = 24 * (n * n * k) := by ring
  have k4 : 3 * (((n + n) * (n + n) + (n + n) * (n + n)) * k) = 24 * (n * n * k) := by ring
  have k5 : 3 * (((n + n) * (n + n) + (n + n) * (n + n)) * n) = 24 * (n * n * n) := by ring
  obtain ⟨dx, gx⟩ := dot_grid hf hp1 gb gcc (by omega) (by omega)
  obtain ⟨dy, gy⟩ := dot_grid hf hp1 ga gcc (by omega) (by omega)
  obtain ⟨dz, gz⟩ := dot_grid hf hp1 ga gcb (by omega) (by omega)
  obtain ⟨dn, gn⟩ := dot_grid hf hp1 gcn hd (by omega) (by omega)
  obtain ⟨dno, -⟩ := dot_grid hf hp1 gcn ho (by omega) (by omega)
  obtain ⟨dna, -⟩ := dot_grid hf hp1 gcn ha (by omega) (by omega)
  have x : fX t r fl = eX t r := by unfold fX eX; rw [sb, sc, cc, dx]
  have y : fY t r fl = eY t r := by unfold fY eY; rw [sa, sc, cc, dy]
  have z : fZ t r fl = eZ t r := by unfold fZ eZ; rw [sa, sb, cb, dz]
  have nd : fN t fl r.direction = eN t r := by unfold fN eN; rw [s1, s2, cn, dn]
  have no : fN t fl r.origin = V3.dot (V3.cross (t.b - t.a) (t.c - t.a)) r.origin := by unfold fN; rw [s1, s2, cn, dno]
  have na : fN t fl t.a = V3.dot (V3.cross (t.b - t.a) (t.c - t.a)) t.a := by unfold fN; rw [s1, s2, cn, dna]
  rw [eq_float, eq_exact, x, y, z, nd, no, na]
  change OnGrid _ _ (eX t r) at gx
  have gy : OnGrid _ _ (eY t r) := gy.neg
  change OnGrid _ _ (eZ t r) at gz
  change OnGrid _ _ (eN t r) at gn
  have hsum := e_sum t r
  have eg : e + (f + e) = 2 * e + f := by ring
  have eg' : e + e + f = 2 * e + f := by ring
  rw [eg, k3] at gx gy gz
  rw [eg', k4] at gn
  generalize eX t r = X at *
  generalize eY t r = Y at *
  generalize eZ t r = Z at *
  generalize eN t r = N at *
  by_cases hx : X < 0
  · simp [hx]
  by_cases hy : Y < 0
  · simp [hx, hy]
  by_cases hz : Z < 0
  · simp [hx, hy, hz]
  by_cases hN : N ≥ 0
  · simp [hx, hy, hz, hN]
  rw [not_lt] at hx hy hz
  rw [not_le] at hN
  have gs : OnGrid (2 * e + f) (2 ^ p) (X + Y + Z) := by
    rw [hsum]
    obtain ⟨m, hm, hm'⟩ := gn.neg
    exact ⟨m, hm.trans (by exact_mod_cast hnk), hm'⟩
  have gxy : OnGrid (2 * e + f) (2 ^ p) (X + Y) := by
    obtain ⟨m, hm⟩ := (show Mult (2 * e + f) (X + Y) by obtain ⟨m, -, hm⟩ := gx.add gy; exact ⟨m, hm⟩)
    refine ⟨m, ?_, hm⟩
    obtain ⟨l, hl, hl'⟩ := gs
    have h2 := two_zpow_pos (2 * e + f)
    have m0 : (0 : ℚ) ≤ m := by
      by_contra hc
      have := mul_neg_of_neg_of_pos (not_le.1 hc) h2
      linarith
    have ml : (m : ℚ) ≤ l := by
      have : (m : ℚ) * 2 ^ (2 * e + f) ≤ l * 2 ^ (2 * e + f) := by linarith
      exact le_of_mul_le_mul_right this h2
    rw [abs_of_nonneg (by exact_mod_cast m0)]
    exact (show m ≤ l by exact_mod_cast ml).trans ((le_abs_self l).trans hl)
  have hsum' : fl (fl (X + Y) + Z) = X + Y + Z := by rw [gxy.fix hf hp1 h2e le_rfl, gs.fix hf hp1 h2e le_rfl]
  have spos : 0 < X + Y + Z := by linarith
  have mk : ∀ {v : ℚ} {j : ℕ}, OnGrid (2 * e + f) j v → Mult (2 * e + f) v := fun ⟨m, _, h⟩ => ⟨m, h⟩
  rw [hsum', if_neg hx.not_gt, if_neg hy.not_gt, if_neg hz.not_gt, if_neg hN.not_ge, if_neg hx.not_gt, if_neg hy.not_gt, if_neg hz.not_gt,
    if_neg hN.not_ge]
  split_ifs with ho' hs0
  · simp
  · exact absurd hs0 spos.ne'
  · refine ⟨by simp, fun q hq => ?_⟩
    obtain rfl := Option.some.inj hq
    have qx := quotient hf hp he (mk gx) gs (by omega) hx spos
    have qy := quotient hf hp he (mk gy) gs (by omega) hy spos
    have qz := quotient hf hp he (mk gz) gs (by omega) hz spos
    refine ⟨_, rfl, ?_, ?_, ?_⟩ <;> simp only [V3.smul_x, V3.smul_y, V3.smul_z, one_div_mul_eq_div] <;> assumption

/-- The error of the products. -/
theorem triple_app (hf : IsRounding p emin fl) (hp : 1 ≤ p) {e f : ℤ} {a b o d : V3 ℚ} (ha : MultV e a) (hb : MultV e b) (ho : MultV e o) (hd : MultV f d)
    (h1 : emin ≤ e) (h2 : emin ≤ e + f) (h3 : emin ≤ 2 * e + f) :
    |dotFl fl (subFl fl a o) (crossFl fl d (subFl fl b o)) - V3.dot (a - o) (V3.cross d (b - o))| ≤ tripleErr p (a - o) d (b - o) :=
  (dot_app hf hp (by omega) (sub_app hf hp h1 ha ho) (cross_app hf hp (by omega) (exactV hd) (sub_app hf hp h1 hb ho))).1

theorem normal_app (hf : IsRounding p emin fl) (hp : 1 ≤ p) {e f : ℤ} {a b c d : V3 ℚ} (ha : MultV e a) (hb : MultV e b) (hc : MultV e c) (hd : MultV f d)
    (h1 : emin ≤ e) (h2 : emin ≤ 2 * e) (h3 : emin ≤ 2 * e + f) :
    |dotFl fl (crossFl fl (subFl fl b a) (subFl fl c a)) d - V3.dot (V3.cross (b - a) (c - a)) d| ≤ tripleErr p d (b - a) (c - a) := by
  have := (dot_app hf hp (by omega) (cross_app hf hp (by omega) (sub_app hf hp h1 hb ha) (sub_app hf hp h1 hc ha)) (exactV hd)).1
  refine this.trans_eq ?_
  unfold tripleErr absTriple
  simp only [V3.dot, absCross, absV]
  ring

section
variable (hf : IsRounding p emin fl) (hp : 1 ≤ p) {e f : ℤ} (t : Tri ℚ) (r : Ray ℚ) (ha : MultV e t.a) (hb : MultV e t.b) (hc : MultV e t.c)
  (ho : MultV e r.origin) (hd : MultV f r.direction) (he0 : e ≤ 0) (hf0 : f ≤ 0) (h3 : emin ≤ 3 * e) (h5 : emin ≤ 2 * e + f)
include hf hp ha hb hc ho hd he0 hf0 h3 h5

theorem products : |fX t r fl - eX t r| ≤ tripleErr p (t.b - r.origin) r.direction (t.c - r.origin) ∧
    |fY t r fl - eY t r| ≤ tripleErr p (t.a - r.origin) r.direction (t.c - r.origin) ∧
    |fZ t r fl - eZ t r| ≤ tripleErr p (t.a - r.origin) r.direction (t.b - r.origin) ∧
    |fN t fl r.direction - eN t r| ≤ tripleErr p r.direction (t.b - t.a) (t.c - t.a) ∧
    |fN t fl r.origin - V3.dot t.normal r.origin| ≤ tripleErr p r.origin (t.b - t.a) (t.c - t.a) ∧
    |fN t fl t.a - V3.dot t.normal t.a| ≤ tripleErr p t.a (t.b - t.a) (t.c - t.a) := by
  refine ⟨triple_app hf hp hb hc ho hd (by omega) (by omega) (by omega), ?_, triple_app hf hp ha hb ho hd (by omega) (by omega) (by omega),
    normal_app hf hp ha hb hc hd (by omega) (by omega) (by omega), normal_app hf hp ha hb hc ho (by omega) (by omega) (by omega),
    normal_app hf hp ha hb hc ha (by omega) (by omega) (by omega)⟩
  have := triple_app hf hp ha hc ho hd (by omega) (by omega) (by omega)
  rw [← abs_neg] at this
  refine le_trans (le_of_eq ?_) this
  congr 1
  unfold fY eY
  ring

/-- C111: a triangle that is hit is hit up to the errors of the products; coordinates that are multiples of `2 ^ e` and `2 ^ f` do not
underflow. -/
theorem C111_sound_partial (h : barycentricFl fl t r ≠ .ok none) :
    -tripleErr p (t.b - r.origin) r.direction (t.c - r.origin) ≤ V3.dot (t.b - r.origin) (V3.cross r.direction (t.c - r.origin)) ∧
    -tripleErr p (t.a - r.origin) r.direction (t.c - r.origin) ≤ -V3.dot (t.a - r.origin) (V3.cross r.direction (t.c - r.origin)) ∧
    -tripleErr p (t.a - r.origin) r.direction (t.b - r.origin) ≤ V3.dot (t.a - r.origin) (V3.cross r.direction (t.b - r.origin)) ∧
    V3.dot t.normal r.direction < tripleErr p r.direction (t.b - t.a) (t.c - t.a) ∧
    V3.dot t.normal t.a - V3.dot t.normal r.origin < tripleErr p r.origin (t.b - t.a) (t.c - t.a) + tripleErr p t.a (t.b - t.a) (t.c - t.a) := by
  obtain ⟨x, y, z, n, o, a⟩ := products hf hp t r ha hb hc ho hd he0 hf0 h3 h5
  rw [abs_le] at x y z n o a
  rw [eq_float] at h
  by_cases k1 : fX t r fl < 0
  · exact absurd (if_pos k1) h
  by_cases k2 : fY t r fl < 0
  · rw [if_neg k1, if_pos k2] at h; exact absurd rfl h
  by_cases k3 : fZ t r fl < 0
  · rw [if_neg k1, if_neg k2, if_pos k3] at h; exact absurd rfl h
  by_cases k4 : fN t fl r.direction ≥ 0
  · rw [if_neg k1, if_neg k2, if_neg k3, if_pos k4] at h; exact absurd rfl h
  by_cases k5 : fN t fl r.origin ≤ fN t fl t.a
  · rw [if_neg k1, if_neg k2, if_neg k3, if_neg k4, if_pos k5] at h; exact absurd rfl h
  change -_ ≤ eX t r ∧ -_ ≤ eY t r ∧ -_ ≤ eZ t r ∧ eN t r < _ ∧ _
  rw [not_lt] at k1 k2 k3
  rw [not_le] at k4 k5
  exact ⟨by linarith, by linarith, by linarith, by linarith, by linarith⟩

/-- C111: a triangle is hit, without a division by zero, if the products exceed their errors. -/
theorem C111_complete_partial (k1 : tripleErr p (t.b - r.origin) r.direction (t.c - r.origin) < V3.dot (t.b - r.origin) (V3.cross r.direction (t.c - r.origin)))
    (k2 : tripleErr p (t.a - r.origin) r.direction (t.c - r.origin) < -V3.dot (t.a - r.origin) (V3.cross r.direction (t.c - r.origin)))
    (k3 : tripleErr p (t.a - r.origin) r.direction (t.b - r.origin) < V3.dot (t.a - r.origin) (V3.cross r.direction (t.b - r.origin)))
    (k4 : V3.dot t.normal r.direction < -tripleErr p r.direction (t.b - t.a) (t.c - t.a))
    (k5 : tripleErr p r.origin (t.b - t.a) (t.c - t.a) + tripleErr p t.a (t.b - t.a) (t.c - t.a) < V3.dot t.normal r.origin - V3.dot t.normal t.a) :
    ∃ q, barycentricFl fl t r = .ok (some q) := by
  obtain ⟨x, y, z, n, o, a⟩ := products hf hp t r ha hb hc ho hd he0 hf0 h3 h5
  change _ < eX t r at k1
  change _ < eY t r at k2
  change _ < eZ t r at k3
  change eN t r < _ at k4
  rw [abs_le] at x y z n o a
  have f0 : fl 0 = 0 := hf.fix 0 ⟨0, emin, by simp, le_rfl, by simp⟩
  have px : 0 < fX t r fl := by linarith
  have py : 0 < fY t r fl := by linarith
  have pz : 0 < fZ t r fl := by linarith
  have mx : fl (fX t r fl) = fX t r fl := hf.fix _ (hf.mem _)
  have s1 : fX t r fl ≤ fl (fX t r fl + fY t r fl) := by
    conv_lhs => rw [← mx]
    exact hf.mono (by linarith)
  have s2 : fX t r fl ≤ fl (fl (fX t r fl + fY t r fl) + fZ t r fl) := by
    conv_lhs => rw [← mx]
    exact hf.mono (by linarith)
  rw [eq_float, if_neg (by linarith), if_neg (by linarith), if_neg (by linarith), if_neg (by linarith), if_neg (by linarith), if_neg (by linarith)]
  exact ⟨_, rfl⟩
end

/-- A triangle with a negative last product is not hit. -/
theorem miss {t : Tri ℚ} {r : Ray ℚ} (h : fZ t r fl < 0) : barycentricFl fl t r = .ok none := by
  rw [eq_float, if_pos h]
  split_ifs <;> rfl

/-- Rounding to the nearest: a number close to a float. -/
theorem near_eq (hf : IsNearest p emin fl) (hp : 1 ≤ p) {k e : ℤ} (he : emin ≤ e) (h1 : 2 ^ (p - 1) < |k|) (h2 : |k| < 2 ^ p) {x : ℚ}
    (hx : |x - k * 2 ^ e| < 2 ^ e / 2) : fl x = k * 2 ^ e := by
  have hu := two_zpow_pos e
  have m1 : (k : ℚ) * 2 ^ e ∈ Floats p emin := mem_of_le hp he h2.le
  have n1 := hf.near x _ m1
  rw [abs_sub_comm (k * (2 : ℚ) ^ e)] at n1
  have n2 : |fl x - k * 2 ^ e| < 2 ^ e := by
    have := abs_add_le (fl x - x) (x - k * 2 ^ e)
    rw [sub_add_sub_cancel] at this
    linarith
  have big : (2 : ℚ) ^ ((p : ℤ) + (e - 1)) ≤ |fl x| := by
    have hk : (2 : ℚ) ^ (p - 1) + 1 ≤ |k| := by exact_mod_cast h1
    have h3 : |(k : ℚ) * 2 ^ e| = |(k : ℚ)| * 2 ^ e := by rw [abs_mul, abs_of_pos hu]
    have h4 : |(k : ℚ) * 2 ^ e| ≤ |fl x| + |fl x - k * 2 ^ e| := by
      have := abs_sub (fl x) (fl x - k * 2 ^ e)
      rwa [sub_sub_cancel] at this
    rw [show (p : ℤ) + (e - 1) = ((p - 1 : ℕ) : ℤ) + e by omega, zpow_add₀ (by norm_num), zpow_natCast]
    have := mul_le_mul_of_nonneg_right hk hu.le
    push_cast at this
    linarith
  obtain ⟨j, hj⟩ := multiple_of_le (hf.mem x) big
  rw [sub_add_cancel] at hj
  rw [hj, ← sub_mul, abs_mul, abs_of_pos hu, mul_lt_iff_lt_one_left hu] at n2
  have : |j - k| < 1 := by exact_mod_cast n2
  have : j = k := by rw [Int.abs_lt_one_iff] at this; omega
  rw [hj, this]

/-- C111: with `float` a ray meets a rectangle that is cut into two triangles, but none of the two is hit. -/
theorem C111_float_refuted (hf : IsNearest 24 (-149) fl) :
    let o : V3 ℚ := ⟨0, 0, 0⟩
    let d : V3 ℚ := ⟨0, -11184811 / 2 ^ 25, 1⟩
    (∃ q, barycentric ⟨⟨-1, 1, 1⟩, ⟨2, -3, 1⟩, ⟨-1, -3, 1⟩⟩ ⟨o, d⟩ = some q) ∧ barycentricFl fl ⟨⟨2, -3, 1⟩, ⟨-1, 1, 1⟩, ⟨2, 1, 1⟩⟩ ⟨o, d⟩ = .ok none ∧
    barycentricFl fl ⟨⟨-1, 1, 1⟩, ⟨2, -3, 1⟩, ⟨-1, -3, 1⟩⟩ ⟨o, d⟩ = .ok none := by
  have fx : ∀ (m e : ℤ), -149 ≤ e → |m| < 2 ^ 24 → fl (m * 2 ^ e) = m * 2 ^ e := fun m e h1 h2 => hf.fix _ ⟨m, e, h2, h1, rfl⟩
  have r0 := fx (-3) (0) (by norm_num) (by norm_num)
  have r1 := fx (-11184811) (-22) (by norm_num) (by norm_num)
  have r2 : fl (-44739243 / 33554432) = _ := near_eq hf (by norm_num) (k := -11184811) (e := -23) (by norm_num) (by norm_num) (by norm_num) (by norm_num [abs_lt])
  have r3 := fx (-1) (0) (by norm_num) (by norm_num)
  have r4 := fx (-2796203) (-22) (by norm_num) (by norm_num)
  have r5 := fx (-11184811) (-24) (by norm_num) (by norm_num)
  have r6 := fx (-11184811) (-25) (by norm_num) (by norm_num)
  have r7 := fx (-3) (-25) (by norm_num) (by norm_num)
  have r8 := fx (-1) (-24) (by norm_num) (by norm_num)
  have r9 := fx (0) (0) (by norm_num) (by norm_num)
  have r10 := fx (1398101) (-22) (by norm_num) (by norm_num)
  have r11 := fx (11184811) (-25) (by norm_num) (by norm_num)
  have r12 := fx (11184811) (-24) (by norm_num) (by norm_num)
  have r13 := fx (1) (0) (by norm_num) (by norm_num)
  have r14 := fx (2) (0) (by norm_num) (by norm_num)
  have r15 : fl (89478485 / 33554432) = _ := near_eq hf (by norm_num) (k := 11184811) (e := -22) (by norm_num) (by norm_num) (by norm_num) (by norm_num [abs_lt])
  have r16 := fx (3) (0) (by norm_num) (by norm_num)
  norm_num at r0 r1 r2 r3 r4 r5 r6 r7 r8 r9 r10 r11 r12 r13 r14 r15 r16
  refine ⟨by norm_num [barycentric, V3.dot, V3.cross], miss ?_, miss ?_⟩
  · simp only [fZ, dotFl, subFl, crossFl]
    norm_num [r0, r1, r2, r3, r4, r5, r6, r7, r8, r9, r10, r11, r12, r13, r14, r15, r16]
  · simp only [fZ, dotFl, subFl, crossFl]
    norm_num [r0, r1, r2, r3, r4, r5, r6, r7, r8, r9, r10, r11, r12, r13, r14, r15, r16]

/-- C111: the same with `double`. -/
theorem C111_double_refuted (hf : IsNearest 53 (-1074) fl) :
    let o : V3 ℚ := ⟨0, 0, 0⟩
    let d : V3 ℚ := ⟨0, 6004799503160661 / 2 ^ 54, -1⟩
    (∃ q, barycentric ⟨⟨1, -1, -1⟩, ⟨-2, 3, -1⟩, ⟨-2, -1, -1⟩⟩ ⟨o, d⟩ = some q) ∧ barycentricFl fl ⟨⟨1, -1, -1⟩, ⟨-2, 3, -1⟩, ⟨-2, -1, -1⟩⟩ ⟨o, d⟩ = .ok none ∧
    barycentricFl fl ⟨⟨-2, 3, -1⟩, ⟨1, -1, -1⟩, ⟨1, 3, -1⟩⟩ ⟨o, d⟩ = .ok none := by
  have fx : ∀ (m e : ℤ), -1074 ≤ e → |m| < 2 ^ 53 → fl (m * 2 ^ e) = m * 2 ^ e := fun m e h1 h2 => hf.fix _ ⟨m, e, h2, h1, rfl⟩
  have r0 := fx (-3) (0) (by norm_num) (by norm_num)
  have r1 := fx (-2) (0) (by norm_num) (by norm_num)
  have r2 : fl (-24019198012642645 / 18014398509481984) = _ := near_eq hf (by norm_num) (k := -6004799503160661) (e := -52) (by norm_num) (by norm_num) (by norm_num) (by norm_num [abs_lt])
  have r3 := fx (-1) (0) (by norm_num) (by norm_num)
  have r4 := fx (-6004799503160661) (-53) (by norm_num) (by norm_num)
  have r5 := fx (-750599937895083) (-51) (by norm_num) (by norm_num)
  have r6 := fx (-6004799503160661) (-54) (by norm_num) (by norm_num)
  have r7 := fx (-3) (-54) (by norm_num) (by norm_num)
  have r8 := fx (-1) (-53) (by norm_num) (by norm_num)
  have r9 := fx (0) (0) (by norm_num) (by norm_num)
  have r10 := fx (6004799503160661) (-54) (by norm_num) (by norm_num)
  have r11 := fx (1501199875790165) (-51) (by norm_num) (by norm_num)
  have r12 := fx (6004799503160661) (-53) (by norm_num) (by norm_num)
  have r13 := fx (1) (0) (by norm_num) (by norm_num)
  have r14 := fx (2) (0) (by norm_num) (by norm_num)
  have r15 := fx (6004799503160661) (-51) (by norm_num) (by norm_num)
  have r16 : fl (48038396025285291 / 18014398509481984) = _ := near_eq hf (by norm_num) (k := 6004799503160661) (e := -51) (by norm_num) (by norm_num) (by norm_num) (by norm_num [abs_lt])
  have r17 := fx (3) (0) (by norm_num) (by norm_num)
  norm_num at r0 r1 r2 r3 r4 r5 r6 r7 r8 r9 r10 r11 r12 r13 r14 r15 r16 r17
  refine ⟨by norm_num [barycentric, V3.dot, V3.cross], miss ?_, miss ?_⟩
  · simp only [fZ, dotFl, subFl, crossFl]
    norm_num [r0, r1, r2, r3, r4, r5, r6, r7, r8, r9, r10, r11, r12, r13, r14, r15, r16, r17]
  · simp only [fZ, dotFl, subFl, crossFl]
    norm_num [r0, r1, r2, r3, r4, r5, r6, r7, r8, r9, r10, r11, r12, r13, r14, r15, r16, r17]

/-- C111: with `float` the coordinates of a hit are divided by zero: the three products vanish, but the normal is rounded against the direction. -/
theorem C111_zero_float_refuted (hf : IsNearest 24 (-149) fl) :
    barycentricFl fl ⟨⟨0, 1, 1⟩, ⟨1, 8388617 / 2 ^ 27, -(8388617 / 2 ^ 27)⟩, ⟨1, 8388617 / 2 ^ 26, 0⟩⟩ ⟨⟨0, 0, 0⟩, ⟨0, 1 / 2, 1 / 2⟩⟩ = .ub := by
  have fx : ∀ (m e : ℤ), -149 ≤ e → |m| < 2 ^ 24 → fl (m * 2 ^ e) = m * 2 ^ e := fun m e h1 h2 => hf.fix _ ⟨m, e, h2, h1, rfl⟩
  have r0 := fx (-8912897) (-23) (by norm_num) (by norm_num)
  have r1 : fl (-142606345 / 134217728) = _ := near_eq hf (by norm_num) (k := -8912897) (e := -23) (by norm_num) (by norm_num) (by norm_num) (by norm_num [abs_lt])
  have r2 := fx (-1) (0) (by norm_num) (by norm_num)
  have r3 := fx (-15728639) (-24) (by norm_num) (by norm_num)
  have r4 : fl (-125829111 / 134217728) = _ := near_eq hf (by norm_num) (k := -15728639) (e := -24) (by norm_num) (by norm_num) (by norm_num) (by norm_num [abs_lt])
  have r5 := fx (-7340031) (-23) (by norm_num) (by norm_num)
  have r6 : fl (-58720247 / 67108864) = _ := near_eq hf (by norm_num) (k := -14680062) (e := -24) (by norm_num) (by norm_num) (by norm_num) (by norm_num [abs_lt])
  have r7 := fx (-1) (-1) (by norm_num) (by norm_num)
  have r8 := fx (-524289) (-23) (by norm_num) (by norm_num)
  have r9 := fx (-8388617) (-27) (by norm_num) (by norm_num)
  have r10 := fx (-524289) (-24) (by norm_num) (by norm_num)
  have r11 := fx (-8388617) (-28) (by norm_num) (by norm_num)
  have r12 := fx (-1) (-24) (by norm_num) (by norm_num)
  have r13 := fx (-1) (-25) (by norm_num) (by norm_num)
  have r14 := fx (0) (0) (by norm_num) (by norm_num)
  have r15 := fx (131071) (-24) (by norm_num) (by norm_num)
  have r16 := fx (1048577) (-25) (by norm_num) (by norm_num)
  have r17 := fx (8388617) (-28) (by norm_num) (by norm_num)
  have r18 := fx (1048577) (-24) (by norm_num) (by norm_num)
  have r19 := fx (8388617) (-27) (by norm_num) (by norm_num)
  have r20 := fx (8388617) (-26) (by norm_num) (by norm_num)
  have r21 := fx (1) (-1) (by norm_num) (by norm_num)
  have r22 : fl (65420940279807 / 70368744177664) = _ := near_eq hf (by norm_num) (k := 15597568) (e := -24) (by norm_num) (by norm_num) (by norm_num) (by norm_num [abs_lt])
  have r23 := fx (15728639) (-24) (by norm_num) (by norm_num)
  have r24 := fx (1) (0) (by norm_num) (by norm_num)
  norm_num at r0 r1 r2 r3 r4 r5 r6 r7 r8 r9 r10 r11 r12 r13 r14 r15 r16 r17 r18 r19 r20 r21 r22 r23 r24
  rw [eq_float]
  simp only [fX, fY, fZ, fN, dotFl, subFl, crossFl]
  norm_num [r0, r1, r2, r3, r4, r5, r6, r7, r8, r9, r10, r11, r12, r13, r14, r15, r16, r17, r18, r19, r20, r21, r22, r23, r24]

/-- C111: the same with `double`. -/
theorem C111_zero_double_refuted (hf : IsNearest 53 (-1074) fl) :
    barycentricFl fl ⟨⟨0, 1, 1⟩, ⟨1, 4503599627370505 / 2 ^ 56, -(4503599627370505 / 2 ^ 56)⟩, ⟨1, 4503599627370505 / 2 ^ 55, 0⟩⟩ ⟨⟨0, 0, 0⟩, ⟨0, 1 / 2, 1 / 2⟩⟩ = .ub := by
  have fx : ∀ (m e : ℤ), -1074 ≤ e → |m| < 2 ^ 53 → fl (m * 2 ^ e) = m * 2 ^ e := fun m e h1 h2 => hf.fix _ ⟨m, e, h2, h1, rfl⟩
  have r0 := fx (-4785074604081153) (-52) (by norm_num) (by norm_num)
  have r1 : fl (-76561193665298441 / 72057594037927936) = _ := near_eq hf (by norm_num) (k := -4785074604081153) (e := -52) (by norm_num) (by norm_num) (by norm_num) (by norm_num [abs_lt])
  have r2 := fx (-1) (0) (by norm_num) (by norm_num)
  have r3 := fx (-8444249301319679) (-53) (by norm_num) (by norm_num)
  have r4 : fl (-67553994410557431 / 72057594037927936) = _ := near_eq hf (by norm_num) (k := -8444249301319679) (e := -53) (by norm_num) (by norm_num) (by norm_num) (by norm_num [abs_lt])
  have r5 := fx (-3940649673949183) (-52) (by norm_num) (by norm_num)
  have r6 : fl (-31525197391593463 / 36028797018963968) = _ := near_eq hf (by norm_num) (k := -7881299347898366) (e := -53) (by norm_num) (by norm_num) (by norm_num) (by norm_num [abs_lt])
  have r7 := fx (-1) (-1) (by norm_num) (by norm_num)
  have r8 := fx (-281474976710657) (-52) (by norm_num) (by norm_num)
  have r9 := fx (-4503599627370505) (-56) (by norm_num) (by norm_num)
  have r10 := fx (-281474976710657) (-53) (by norm_num) (by norm_num)
  have r11 := fx (-4503599627370505) (-57) (by norm_num) (by norm_num)
  have r12 := fx (-1) (-53) (by norm_num) (by norm_num)
  have r13 := fx (-1) (-54) (by norm_num) (by norm_num)
  have r14 := fx (0) (0) (by norm_num) (by norm_num)
  have r15 := fx (70368744177663) (-53) (by norm_num) (by norm_num)
  have r16 := fx (562949953421313) (-54) (by norm_num) (by norm_num)
  have r17 := fx (4503599627370505) (-57) (by norm_num) (by norm_num)
  have r18 := fx (562949953421313) (-53) (by norm_num) (by norm_num)
  have r19 := fx (4503599627370505) (-56) (by norm_num) (by norm_num)
  have r20 := fx (4503599627370505) (-55) (by norm_num) (by norm_num)
  have r21 := fx (1) (-1) (by norm_num) (by norm_num)
  have r22 : fl (18856302678394911502838530047999 / 20282409603651670423947251286016) = _ := near_eq hf (by norm_num) (k := 8373880557142016) (e := -53) (by norm_num) (by norm_num) (by norm_num) (by norm_num [abs_lt])
  have r23 := fx (8444249301319679) (-53) (by norm_num) (by norm_num)
  have r24 := fx (1) (0) (by norm_num) (by norm_num)
  norm_num at r0 r1 r2 r3 r4 r5 r6 r7 r8 r9 r10 r11 r12 r13 r14 r15 r16 r17 r18 r19 r20 r21 r22 r23 r24
  rw [eq_float]
  simp only [fX, fY, fZ, fN, dotFl, subFl, crossFl]
  norm_num [r0, r1, r2, r3, r4, r5, r6, r7, r8, r9, r10, r11, r12, r13, r14, r15, r16, r17, r18, r19, r20, r21, r22, r23, r24]

/-- A triangle and a ray for the theorems. -/
theorem sample_grid : let t : Tri ℚ := ⟨⟨-20, -10, 30⟩, ⟨10, 40, 30⟩, ⟨40, -10, 30⟩⟩
    let r : Ray ℚ := ⟨⟨1, 2, 3⟩, ⟨0, 1 / 4, 5 / 2⟩⟩
    GridV 0 40 t.a ∧ GridV 0 40 t.b ∧ GridV 0 40 t.c ∧ GridV 0 40 r.origin ∧ GridV (-2) 10 r.direction ∧ (-149 : ℤ) ≤ -2 * (24 : ℕ) ∧
    24 * (40 * 40 * 10) ≤ 2 ^ 24 ∧ 24 * (40 * 40 * 40) ≤ 2 ^ 24 ∧ (∃ q, barycentric t r = some q) := by
  refine ⟨⟨⟨-20, by norm_num, by norm_num⟩, ⟨-10, by norm_num, by norm_num⟩, ⟨30, by norm_num, by norm_num⟩⟩,
    ⟨⟨10, by norm_num, by norm_num⟩, ⟨40, by norm_num, by norm_num⟩, ⟨30, by norm_num, by norm_num⟩⟩,
    ⟨⟨40, by norm_num, by norm_num⟩, ⟨-10, by norm_num, by norm_num⟩, ⟨30, by norm_num, by norm_num⟩⟩,
    ⟨⟨1, by norm_num, by norm_num⟩, ⟨2, by norm_num, by norm_num⟩, ⟨3, by norm_num, by norm_num⟩⟩,
    ⟨⟨0, by norm_num, by norm_num⟩, ⟨1, by norm_num, by norm_num⟩, ⟨10, by norm_num, by norm_num⟩⟩, by norm_num, by norm_num, by norm_num,
    by norm_num [barycentric, V3.dot, V3.cross]⟩

/-- The products of this ray exceed their errors with `float`. -/
theorem sample_large : let t : Tri ℚ := ⟨⟨-20, -10, 30⟩, ⟨10, 40, 30⟩, ⟨40, -10, 30⟩⟩
    let r : Ray ℚ := ⟨⟨1, 2, 3⟩, ⟨0, 1 / 4, 5 / 2⟩⟩
    tripleErr 24 (t.b - r.origin) r.direction (t.c - r.origin) < V3.dot (t.b - r.origin) (V3.cross r.direction (t.c - r.origin)) ∧
    tripleErr 24 (t.a - r.origin) r.direction (t.c - r.origin) < -V3.dot (t.a - r.origin) (V3.cross r.direction (t.c - r.origin)) ∧
    tripleErr 24 (t.a - r.origin) r.direction (t.b - r.origin) < V3.dot (t.a - r.origin) (V3.cross r.direction (t.b - r.origin)) ∧
    V3.dot t.normal r.direction < -tripleErr 24 r.direction (t.b - t.a) (t.c - t.a) ∧
    tripleErr 24 r.origin (t.b - t.a) (t.c - t.a) + tripleErr 24 t.a (t.b - t.a) (t.c - t.a) < V3.dot t.normal r.origin - V3.dot t.normal t.a := by
  norm_num [tripleErr, absTriple, Plane.Spec.ulp, V3.dot, V3.cross, Tri.normal]

/-! The theorems for this ray. -/

example := C111_exact (nearest_isNearest (p := 24) (emin := -149) (by norm_num)).toIsRounding (by norm_num) (by norm_num) _ _ sample_grid.1 sample_grid.2.1
  sample_grid.2.2.1 sample_grid.2.2.2.1 sample_grid.2.2.2.2.1 (by norm_num) (by norm_num) (by norm_num) (by norm_num) (by norm_num) (by norm_num)

theorem sample_hit : ∃ q, barycentricFl (nearest 24 (-149)) ⟨⟨-20, -10, 30⟩, ⟨10, 40, 30⟩, ⟨40, -10, 30⟩⟩ ⟨⟨1, 2, 3⟩, ⟨0, 1 / 4, 5 / 2⟩⟩ = .ok (some q) := by
  obtain ⟨k1, k2, k3, k4, k5⟩ := sample_large
  obtain ⟨⟨a1, a2, a3⟩, ⟨b1, b2, b3⟩, ⟨c1, c2, c3⟩, ⟨o1, o2, o3⟩, ⟨d1, d2, d3⟩, -⟩ := sample_grid
  exact C111_complete_partial (nearest_isNearest (p := 24) (emin := -149) (by norm_num)).toIsRounding (by norm_num) _ _ (e := 0) (f := -2)
    ⟨a1.imp fun _ h => h.2, a2.imp fun _ h => h.2, a3.imp fun _ h => h.2⟩ ⟨b1.imp fun _ h => h.2, b2.imp fun _ h => h.2, b3.imp fun _ h => h.2⟩
    ⟨c1.imp fun _ h => h.2, c2.imp fun _ h => h.2, c3.imp fun _ h => h.2⟩ ⟨o1.imp fun _ h => h.2, o2.imp fun _ h => h.2, o3.imp fun _ h => h.2⟩
    ⟨d1.imp fun _ h => h.2, d2.imp fun _ h => h.2, d3.imp fun _ h => h.2⟩ (by norm_num) (by norm_num) (by norm_num) (by norm_num) k1 k2 k3 k4 k5

example := C111_float_refuted (nearest_isNearest (by norm_num))
example := C111_double_refuted (nearest_isNearest (by norm_num))
example := C111_zero_float_refuted (nearest_isNearest (by norm_num))

example : ∃ (t : Tri ℚ) (r : Ray ℚ), -tripleErr 24 (t.b - r.origin) r.direction (t.c - r.origin) ≤ V3.dot (t.b - r.origin) (V3.cross r.direction (t.c - r.origin)) := by
  obtain ⟨k1, k2, k3, k4, k5⟩ := sample_large
  obtain ⟨⟨a1, a2, a3⟩, ⟨b1, b2, b3⟩, ⟨c1, c2, c3⟩, ⟨o1, o2, o3⟩, ⟨d1, d2, d3⟩, -⟩ := sample_grid
  refine ⟨⟨⟨-20, -10, 30⟩, ⟨10, 40, 30⟩, ⟨40, -10, 30⟩⟩, ⟨⟨1, 2, 3⟩, ⟨0, 1 / 4, 5 / 2⟩⟩,
    (C111_sound_partial (nearest_isNearest (p := 24) (emin := -149) (by norm_num)).toIsRounding (by norm_num) _ _ (e := 0) (f := -2)
    ⟨a1.imp fun _ h => h.2, a2.imp fun _ h => h.2, a3.imp fun _ h => h.2⟩ ⟨b1.imp fun _ h => h.2, b2.imp fun _ h => h.2, b3.imp fun _ h => h.2⟩
    ⟨c1.imp fun _ h => h.2, c2.imp fun _ h => h.2, c3.imp fun _ h => h.2⟩ ⟨o1.imp fun _ h => h.2, o2.imp fun _ h => h.2, o3.imp fun _ h => h.2⟩
    ⟨d1.imp fun _ h => h.2, d2.imp fun _ h => h.2, d3.imp fun _ h => h.2⟩ (by norm_num) (by norm_num) (by norm_num) (by norm_num) ?_).1⟩
  obtain ⟨q, hq⟩ := sample_hit
  rw [hq]
  simp

end Geom.Triangle.Props
