import Verif.Props.GenGrid
import Verif.Props.TriangleRay
import Verif.Props.AABBCollision
import Verif.Spec.Pick

/-
  C103: picking a generated cuboid with a ray.
-/
set_option autoImplicit false
set_option linter.unusedSectionVars false

namespace Geom.Gen
open TMesh (Mesh Vertex Ix)
open Spec
open Triangle.Spec (InTri facing at_)
open Triangle (Tri)
open Plane (Ray)

/-- The triple product. -/
def triple (a b d : V3 ℝ) : ℝ := (a.y * b.z - a.z * b.y) * d.x + (a.z * b.x - a.x * b.z) * d.y + (a.x * b.y - a.y * b.x) * d.z

/-- A point of a parallelogram is in one of its two triangles. -/
theorem quad_inTri (alt : Bool) (u v : ℕ) (o a b : V3 ℝ) (s t : ℝ) (hs : 0 ≤ s) (hs1 : s ≤ 1) (ht : 0 ≤ t) (ht1 : t ≤ 1) :
    ∃ f ∈ quad alt u v o (o + a) (o + a + b) (o + b), InTri f.tri (o + s • a + t • b) := by
  unfold quad
  split_ifs
  · rcases le_total (s + t) 1 with h | h
    · refine ⟨_, List.mem_cons_self .., 1 - s - t, s, t, by linarith, hs, ht, by ring, ?_⟩
      simp only [Face.tri]; apply V3.ext <;> simp <;> ring
    · refine ⟨_, List.mem_cons_of_mem _ (List.mem_cons_self ..), 1 - t, s + t - 1, 1 - s, by linarith, by linarith, by linarith, by ring, ?_⟩
      simp only [Face.tri]; apply V3.ext <;> simp <;> ring
  · rcases le_total t s with h | h
    · refine ⟨_, List.mem_cons_self .., 1 - s, s - t, t, by linarith, by linarith, ht, by ring, ?_⟩
      simp only [Face.tri]; apply V3.ext <;> simp <;> ring
    · refine ⟨_, List.mem_cons_of_mem _ (List.mem_cons_self ..), 1 - t, s, t - s, by linarith, hs, by linarith, by ring, ?_⟩
      simp only [Face.tri]; apply V3.ext <;> simp <;> ring

/-- Both triangles of a parallelogram face the same side. -/
theorem quad_facing (alt : Bool) (u v : ℕ) (o a b : V3 ℝ) : ∀ f ∈ quad alt u v o (o + a) (o + a + b) (o + b), ∀ d,
    facing f.tri d = triple a b d := by
  intro f hf d
  unfold quad at hf
  split_ifs at hf <;> rcases List.mem_cons.1 hf with rfl | hf
  all_goals first
    | (obtain rfl := List.mem_singleton.1 hf; simp [facing, Face.tri, triple]; ring)
    | (simp [facing, Face.tri, triple]; try ring)

/-- All points of the triangles of a parallelogram. -/
theorem quad_points (alt : Bool) (u v : ℕ) (o a b : V3 ℝ) : ∀ f ∈ quad alt u v o (o + a) (o + a + b) (o + b), ∀ x, InTri f.tri x →
    ∃ s t : ℝ, 0 ≤ s ∧ s ≤ 1 ∧ 0 ≤ t ∧ t ≤ 1 ∧ x = o + s • a + t • b := by
  rintro f hf x ⟨i, j, k, hi, hj, hk, h1, rfl⟩
  obtain rfl : i = 1 - j - k := by linarith
  unfold quad at hf
  split_ifs at hf <;> rcases List.mem_cons.1 hf with rfl | hf
  · exact ⟨j, k, hj, by linarith, hk, by linarith, by simp only [Face.tri]; apply V3.ext <;> simp <;> ring⟩
  · obtain rfl := List.mem_singleton.1 hf
    exact ⟨1 - k, j + k, by linarith, by linarith, by linarith, by linarith, by simp only [Face.tri]; apply V3.ext <;> simp <;> ring⟩
  · exact ⟨j + k, k, by linarith, by linarith, by linarith, by linarith, by simp only [Face.tri]; apply V3.ext <;> simp <;> ring⟩
  · obtain rfl := List.mem_singleton.1 hf
    exact ⟨j, j + k, by linarith, by linarith, by linarith, by linarith, by simp only [Face.tri]; apply V3.ext <;> simp <;> ring⟩

/-- The cells of a regular grid on a parallelogram. -/
noncomputable def rect (alt : Bool) (H V : ℕ) (o a b : V3 ℝ) : List Face :=
  grid V H fun v u => quad alt u v (o + ((v : ℝ) / V) • a + ((u : ℝ) / H) • b)
    (o + ((v : ℝ) / V) • a + ((u : ℝ) / H) • b + ((1 : ℝ) / V) • a)
    (o + ((v : ℝ) / V) • a + ((u : ℝ) / H) • b + ((1 : ℝ) / V) • a + ((1 : ℝ) / H) • b)
    (o + ((v : ℝ) / V) • a + ((u : ℝ) / H) • b + ((1 : ℝ) / H) • b)

/-- The cell of a number. -/
theorem cell (n : ℕ) (hn : 1 ≤ n) (x : ℝ) (h0 : 0 ≤ x) (h1 : x ≤ 1) : ∃ k < n, ∃ s : ℝ, 0 ≤ s ∧ s ≤ 1 ∧ x = (k : ℝ) / n + s * (1 / n) := by
  have hn' : (0 : ℝ) < n := by exact_mod_cast hn
  rcases h1.lt_or_eq with h1 | rfl
  · have hx : 0 ≤ x * n := by positivity
    refine ⟨⌊x * n⌋₊, ?_, x * n - ⌊x * n⌋₊, ?_, ?_, ?_⟩
    · rw [Nat.floor_lt hx]; nlinarith
    · have := Nat.floor_le hx; linarith
    · have := Nat.lt_floor_add_one (x * n); linarith
    · field_simp; ring
  · refine ⟨n - 1, by omega, 1, by norm_num, le_rfl, ?_⟩
    rw [Nat.cast_sub hn]; field_simp; push_cast; ring

theorem rect_inTri (alt : Bool) (H V : ℕ) (hH : 1 ≤ H) (hV : 1 ≤ V) (o a b : V3 ℝ) (s t : ℝ) (hs : 0 ≤ s) (hs1 : s ≤ 1) (ht : 0 ≤ t)
    (ht1 : t ≤ 1) : ∃ f ∈ rect alt H V o a b, InTri f.tri (o + s • a + t • b) := by
  obtain ⟨v, hv, s', h1, h2, rfl⟩ := cell V hV s hs hs1
  obtain ⟨u, hu, t', h3, h4, rfl⟩ := cell H hH t ht ht1
  obtain ⟨f, hf, h⟩ := quad_inTri alt u v (o + ((v : ℝ) / V) • a + ((u : ℝ) / H) • b) (((1 : ℝ) / V) • a) (((1 : ℝ) / H) • b) s' t' h1 h2 h3 h4
  refine ⟨f, ?_, ?_⟩
  · unfold rect grid
    exact List.mem_flatMap.2 ⟨v, List.mem_range.2 hv, List.mem_flatMap.2 ⟨u, List.mem_range.2 hu, hf⟩⟩
  · convert h using 1
    apply V3.ext <;> simp <;> ring

theorem rect_mem (alt : Bool) (H V : ℕ) (o a b : V3 ℝ) (f : Face) (hf : f ∈ rect alt H V o a b) : 1 ≤ H ∧ 1 ≤ V ∧
    (∀ d, facing f.tri d = triple a b d / (V * H)) ∧
    ∀ x, InTri f.tri x → ∃ s t : ℝ, 0 ≤ s ∧ s ≤ 1 ∧ 0 ≤ t ∧ t ≤ 1 ∧ x = o + s • a + t • b := by
  unfold rect grid at hf
  obtain ⟨v, hv, hf⟩ := List.mem_flatMap.1 hf
  obtain ⟨u, hu, hf⟩ := List.mem_flatMap.1 hf
  rw [List.mem_range] at hv hu
  have hV : (0 : ℝ) < V := by exact_mod_cast (by omega : 0 < V)
  have hH : (0 : ℝ) < H := by exact_mod_cast (by omega : 0 < H)
  refine ⟨by omega, by omega, fun d => ?_, fun x hx => ?_⟩
  · rw [quad_facing alt u v _ _ _ f hf d]
    simp only [triple]
    simp
    field_simp
  · obtain ⟨s, t, h1, h2, h3, h4, rfl⟩ := quad_points alt u v _ _ _ f hf x hx
    have hv' : (v : ℝ) + 1 ≤ V := by exact_mod_cast hv
    have hu' : (u : ℝ) + 1 ≤ H := by exact_mod_cast hu
    refine ⟨(v : ℝ) / V + s * (1 / V), (u : ℝ) / H + t * (1 / H), by positivity, ?_, by positivity, ?_, ?_⟩
    · rw [mul_one_div, ← add_div, div_le_one hV]; linarith
    · rw [mul_one_div, ← add_div, div_le_one hH]; linarith
    · apply V3.ext <;> simp <;> ring


theorem cells_rect (alt : Bool) (H V : ℕ) (hH : 1 ≤ H) (hV : 1 ≤ V) (o a b : V3 ℝ) (F : ℕ → ℕ → V3 ℝ)
    (hF : ∀ v u, F v u = o + ((v : ℝ) / V) • a + ((u : ℝ) / H) • b) :
    (grid V H fun v u => quad alt u v (F v u) (F (v + 1) u) (F (v + 1) (u + 1)) (F v (u + 1))) = rect alt H V o a b := by
  have hV' : (V : ℝ) ≠ 0 := by positivity
  have hH' : (H : ℝ) ≠ 0 := by positivity
  unfold rect
  congr 1
  funext v u
  congr 1
  · rw [hF]
  · rw [hF]; push_cast; apply V3.ext <;> simp <;> field_simp <;> ring
  · rw [hF]; push_cast; apply V3.ext <;> simp <;> field_simp <;> ring
  · rw [hF]; push_cast; apply V3.ext <;> simp <;> field_simp <;> ring

/-- The faces cover a side of the box and face outward. -/
def SideOf (fs : List Face) (size : V3 ℝ) (i : Fin 3) (e : ℝ) : Prop :=
  (∀ f ∈ fs, (∃ c, 0 < c ∧ ∀ d, facing f.tri d = c * (e * comps d i)) ∧
    ∀ x, InTri f.tri x → comps x ∈ AABB.pts (centered size) ∧ e * comps x i = comps size i / 2) ∧
  ∀ x, comps x ∈ AABB.pts (centered size) → e * comps x i = comps size i / 2 → ∃ f ∈ fs, InTri f.tri x

theorem rect_side (alt : Bool) (H V : ℕ) (hH : 1 ≤ H) (hV : 1 ≤ V) (o a b size : V3 ℝ) (i : Fin 3) (e c : ℝ) (hc : 0 < c)
    (h1 : ∀ d, triple a b d = c * (e * comps d i))
    (h2 : ∀ s t : ℝ, 0 ≤ s → s ≤ 1 → 0 ≤ t → t ≤ 1 →
      comps (o + s • a + t • b) ∈ AABB.pts (centered size) ∧ e * comps (o + s • a + t • b) i = comps size i / 2)
    (h3 : ∀ x, comps x ∈ AABB.pts (centered size) → e * comps x i = comps size i / 2 →
      ∃ s t : ℝ, 0 ≤ s ∧ s ≤ 1 ∧ 0 ≤ t ∧ t ≤ 1 ∧ x = o + s • a + t • b) : SideOf (rect alt H V o a b) size i e := by
  have hV' : (0 : ℝ) < V := by exact_mod_cast hV
  have hH' : (0 : ℝ) < H := by exact_mod_cast hH
  refine ⟨fun f hf => ?_, fun x hx he => ?_⟩
  · obtain ⟨-, -, g1, g2⟩ := rect_mem alt H V o a b f hf
    refine ⟨⟨c / (V * H), by positivity, fun d => ?_⟩, fun x hx => ?_⟩
    · rw [g1, h1]; ring
    · obtain ⟨s, t, k1, k2, k3, k4, rfl⟩ := g2 x hx
      exact h2 s t k1 k2 k3 k4
  · obtain ⟨s, t, k1, k2, k3, k4, rfl⟩ := h3 x hx he
    exact rect_inTri alt H V hH hV o a b s t k1 k2 k3 k4

theorem mem_centered (size x : V3 ℝ) : comps x ∈ AABB.pts (centered size) ↔
    (-size.x / 2 ≤ x.x ∧ x.x ≤ size.x / 2) ∧ (-size.y / 2 ≤ x.y ∧ x.y ≤ size.y / 2) ∧ (-size.z / 2 ≤ x.z ∧ x.z ≤ size.z / 2) := by
  simp [AABB.pts, comps, centered, Fin.forall_fin_succ]

theorem side_z (alt : Bool) (H V : ℕ) (hH : 1 ≤ H) (hV : 1 ≤ V) (X Y Z : ℝ) (hX : 0 < X) (hY : 0 < Y) (e : ℝ) (he : e = 1 ∨ e = -1) (hZ : 0 < Z) :
    SideOf (rect alt H V ⟨e * X / 2, -Y / 2, e * Z / 2⟩ ⟨0, Y, 0⟩ ⟨-e * X, 0, 0⟩) ⟨X, Y, Z⟩ 2 e := by
  refine rect_side alt H V hH hV _ _ _ _ 2 e (X * Y) (by positivity) (fun d => ?_) (fun s t k1 k2 k3 k4 => ?_) fun x hx hi => ?_
  · simp [triple, comps]; ring
  · rw [mem_centered]
    have q1 : s * Y ≤ Y := by nlinarith
    have q2 : 0 ≤ s * Y := by positivity
    have q3 : t * X ≤ X := by nlinarith
    have q4 : 0 ≤ t * X := by positivity
    rcases he with rfl | rfl <;> simp [comps] <;> and_intros <;> linarith
  · rw [mem_centered] at hx
    simp [comps] at hx hi
    obtain ⟨⟨a1, a2⟩, ⟨a3, a4⟩, -⟩ := hx
    rcases he with rfl | rfl
    · refine ⟨(x.y + Y / 2) / Y, (X / 2 - x.x) / X, by apply div_nonneg <;> linarith, by rw [div_le_one hY]; linarith,
        by apply div_nonneg <;> linarith, by rw [div_le_one hX]; linarith, ?_⟩
      apply V3.ext <;> simp <;> field_simp <;> linarith
    · refine ⟨(x.y + Y / 2) / Y, (x.x + X / 2) / X, by apply div_nonneg <;> linarith, by rw [div_le_one hY]; linarith,
        by apply div_nonneg <;> linarith, by rw [div_le_one hX]; linarith, ?_⟩
      apply V3.ext <;> simp <;> field_simp <;> linarith

theorem side_x (alt : Bool) (H V : ℕ) (hH : 1 ≤ H) (hV : 1 ≤ V) (X Y Z : ℝ) (hX : 0 < X) (hY : 0 < Y) (e : ℝ) (he : e = 1 ∨ e = -1) (hZ : 0 < Z) :
    SideOf (rect alt H V ⟨e * X / 2, -Y / 2, -e * Z / 2⟩ ⟨0, Y, 0⟩ ⟨0, 0, e * Z⟩) ⟨X, Y, Z⟩ 0 e := by
  refine rect_side alt H V hH hV _ _ _ _ 0 e (Y * Z) (by positivity) (fun d => ?_) (fun s t k1 k2 k3 k4 => ?_) fun x hx hi => ?_
  · simp [triple, comps]; ring
  · rw [mem_centered]
    have q1 : s * Y ≤ Y := by nlinarith
    have q2 : 0 ≤ s * Y := by positivity
    have q3 : t * Z ≤ Z := by nlinarith
    have q4 : 0 ≤ t * Z := by positivity
    rcases he with rfl | rfl <;> simp [comps] <;> and_intros <;> linarith
  · rw [mem_centered] at hx
    simp [comps] at hx hi
    obtain ⟨-, ⟨a3, a4⟩, a1, a2⟩ := hx
    rcases he with rfl | rfl
    · refine ⟨(x.y + Y / 2) / Y, (x.z + Z / 2) / Z, by apply div_nonneg <;> linarith, by rw [div_le_one hY]; linarith,
        by apply div_nonneg <;> linarith, by rw [div_le_one hZ]; linarith, ?_⟩
      apply V3.ext <;> simp <;> field_simp <;> linarith
    · refine ⟨(x.y + Y / 2) / Y, (Z / 2 - x.z) / Z, by apply div_nonneg <;> linarith, by rw [div_le_one hY]; linarith,
        by apply div_nonneg <;> linarith, by rw [div_le_one hZ]; linarith, ?_⟩
      apply V3.ext <;> simp <;> field_simp <;> linarith

theorem side_y (alt : Bool) (H V : ℕ) (hH : 1 ≤ H) (hV : 1 ≤ V) (X Y Z : ℝ) (hX : 0 < X) (hY : 0 < Y) (e : ℝ) (he : e = 1 ∨ e = -1) (hZ : 0 < Z) :
    SideOf (rect alt H V ⟨-X / 2, e * Y / 2, -e * Z / 2⟩ ⟨0, 0, e * Z⟩ ⟨X, 0, 0⟩) ⟨X, Y, Z⟩ 1 e := by
  refine rect_side alt H V hH hV _ _ _ _ 1 e (X * Z) (by positivity) (fun d => ?_) (fun s t k1 k2 k3 k4 => ?_) fun x hx hi => ?_
  · simp [triple, comps]; ring
  · rw [mem_centered]
    have q1 : s * Z ≤ Z := by nlinarith
    have q2 : 0 ≤ s * Z := by positivity
    have q3 : t * X ≤ X := by nlinarith
    have q4 : 0 ≤ t * X := by positivity
    rcases he with rfl | rfl <;> simp [comps] <;> and_intros <;> linarith
  · rw [mem_centered] at hx
    simp [comps] at hx hi
    obtain ⟨⟨a1, a2⟩, -, ⟨a3, a4⟩⟩ := hx
    rcases he with rfl | rfl
    · refine ⟨(x.z + Z / 2) / Z, (x.x + X / 2) / X, by apply div_nonneg <;> linarith, by rw [div_le_one hZ]; linarith,
        by apply div_nonneg <;> linarith, by rw [div_le_one hX]; linarith, ?_⟩
      apply V3.ext <;> simp <;> field_simp <;> linarith
    · refine ⟨(Z / 2 - x.z) / Z, (x.x + X / 2) / X, by apply div_nonneg <;> linarith, by rw [div_le_one hZ]; linarith,
        by apply div_nonneg <;> linarith, by rw [div_le_one hX]; linarith, ?_⟩
      apply V3.ext <;> simp <;> field_simp <;> linarith

theorem comps_at (r : Ray ℝ) (s : ℝ) : AABB.rayAt (comps r.origin) (comps r.direction) s = comps (at_ r s) := by
  funext i
  fin_cases i <;> simp [AABB.rayAt, comps, at_] <;> ring

theorem comps_at' (r : Ray ℝ) (s : ℝ) (i : Fin 3) : comps (at_ r s) i = comps r.origin i + s * comps r.direction i := by
  rw [← comps_at, AABB.rayAt]; ring

theorem comps_inj {p q : V3 ℝ} (h : comps p = comps q) : p = q := by
  apply V3.ext
  · exact congrFun h 0
  · exact congrFun h 1
  · exact congrFun h 2

/-- Where a ray enters a box it passes a side of it from the front. -/
theorem enters (size : V3 ℝ) (r : Ray ℝ) (t : ℝ) (ht : 0 < t)
    (h : IsLeast {s | 0 ≤ s ∧ comps (at_ r s) ∈ AABB.pts (centered size)} t) :
    ∃ (i : Fin 3) (e : ℝ), (e = 1 ∨ e = -1) ∧ e * comps r.direction i < 0 ∧ e * comps (at_ r t) i = comps size i / 2 := by
  have hb : ∀ i, (centered size).min i = -(comps size i / 2) ∧ (centered size).max i = comps size i / 2 := by
    intro i; fin_cases i <;> simp [centered, comps] <;> ring
  by_contra hc
  push Not at hc
  have hin : ∀ i, -(comps size i / 2) ≤ comps (at_ r t) i ∧ comps (at_ r t) i ≤ comps size i / 2 := by
    intro i; have := h.1.2 i; rwa [(hb i).1, (hb i).2] at this
  have step : ∀ i, ∃ δ : ℝ, 0 < δ ∧ ∀ ε, 0 ≤ ε → ε ≤ δ →
      -(comps size i / 2) ≤ comps (at_ r (t - ε)) i ∧ comps (at_ r (t - ε)) i ≤ comps size i / 2 := by
    intro i
    obtain ⟨h1, h2⟩ := hin i
    have he : ∀ ε, comps (at_ r (t - ε)) i = comps (at_ r t) i - ε * comps r.direction i := fun ε => by
      rw [comps_at', comps_at']; ring
    simp only [he]
    have c1 := hc i 1 (.inl rfl)
    have c2 := hc i (-1) (.inr rfl)
    rcases lt_trichotomy (comps r.direction i) 0 with hd | hd | hd
    · have h2' := lt_of_le_of_ne h2 (by simpa using c1 (by linarith))
      refine ⟨(comps size i / 2 - comps (at_ r t) i) / -comps r.direction i, div_pos (by linarith) (by linarith), fun ε h0 h => ?_⟩
      rw [le_div_iff₀ (by linarith)] at h
      have := mul_nonneg h0 (neg_nonneg.2 hd.le)
      constructor <;> linarith
    · exact ⟨1, one_pos, fun ε _ _ => by rw [hd]; constructor <;> linarith⟩
    · have h1' := lt_of_le_of_ne h1 (fun h => c2 (by linarith) (by rw [← h]; ring))
      refine ⟨(comps (at_ r t) i + comps size i / 2) / comps r.direction i, div_pos (by linarith) hd, fun ε h0 h => ?_⟩
      rw [le_div_iff₀ hd] at h
      have := mul_nonneg h0 hd.le
      constructor <;> linarith
  choose δ hδ hs using step
  set ε := min t (min (δ 0) (min (δ 1) (δ 2))) with hε
  have e0 : 0 < ε := lt_min ht (lt_min (hδ 0) (lt_min (hδ 1) (hδ 2)))
  have e1 : ε ≤ t := min_le_left _ _
  have e2 : ∀ i, ε ≤ δ i := by
    have h1 : ε ≤ min (δ 0) (min (δ 1) (δ 2)) := min_le_right _ _
    intro i
    fin_cases i
    · exact h1.trans (min_le_left _ _)
    · exact (h1.trans (min_le_right _ _)).trans (min_le_left _ _)
    · exact (h1.trans (min_le_right _ _)).trans (min_le_right _ _)
  have := h.2 (show t - ε ∈ {s | 0 ≤ s ∧ comps (at_ r s) ∈ AABB.pts (centered size)} from
    ⟨by linarith, fun i => by rw [(hb i).1, (hb i).2]; exact hs i ε e0.le (e2 i)⟩)
  linarith

/-- The faces cover all sides of the box. -/
def Covers (fs : List Face) (size : V3 ℝ) : Prop :=
  (∀ f ∈ fs, ∃ (i : Fin 3) (e : ℝ) (gs : List Face), SideOf gs size i e ∧ (e = 1 ∨ e = -1) ∧ f ∈ gs) ∧
  ∀ (i : Fin 3) (e : ℝ), (e = 1 ∨ e = -1) → ∃ gs, SideOf gs size i e ∧ ∀ f ∈ gs, f ∈ fs

theorem facing_add' (t : Tri ℝ) (a b : V3 ℝ) : facing t (a + b) = facing t a + facing t b := by simp [facing]; ring

/-- A picked point is where the ray enters the box. -/
theorem picks_least {fs : List Face} {size : V3 ℝ} (hf : Covers fs size) (r : Ray ℝ) (f : Face) (hm : f ∈ fs) (p : V3 ℝ) (h : Picks f r p) :
    r.direction ≠ 0 ∧ ∃ s, 0 < s ∧ p = at_ r s ∧ IsLeast {s | 0 ≤ s ∧ comps (at_ r s) ∈ AABB.pts (centered size)} s := by
  obtain ⟨q, hq, rfl⟩ := h
  obtain ⟨⟨q1, q2, q3, q4⟩, s, hs, hp⟩ := Triangle.Props.C22_coordinates f.tri r q hq
  obtain ⟨i, e, gs, hg, he, hfg⟩ := hf.1 f hm
  obtain ⟨⟨c, hc, hfc⟩, hin⟩ := hg.1 f hfg
  have hfd : facing f.tri r.direction < 0 := by
    by_contra h
    rw [Triangle.Props.C22_back f.tri r (not_lt.1 h)] at hq
    cases hq
  rw [hfc] at hfd
  have hd : e * comps r.direction i < 0 := by
    by_contra h
    have := mul_nonneg hc.le (not_lt.1 h)
    linarith
  have hx : InTri f.tri (at_ r s) := ⟨q.x, q.y, q.z, q1, q2, q3, q4, hp.symm⟩
  have hx' := hin _ hx
  refine ⟨?_, s, hs, hp, ⟨hs.le, hx'.1⟩, ?_⟩
  · intro h
    rw [h] at hd
    have : comps (0 : V3 ℝ) i = 0 := by fin_cases i <;> simp [comps]
    rw [this] at hd
    simp at hd
  · rintro s' ⟨h0, hs'⟩
    by_contra hlt
    push Not at hlt
    have h1 := hs' i
    have h2 : e * comps (at_ r s') i ≤ comps size i / 2 := by
      have hb : (centered size).min i = -(comps size i / 2) ∧ (centered size).max i = comps size i / 2 := by
        fin_cases i <;> simp [centered, comps] <;> ring
      rw [hb.1, hb.2] at h1
      rcases he with rfl | rfl <;> linarith [h1.1, h1.2]
    rw [← hx'.2, comps_at', comps_at'] at h2
    nlinarith

/-- All of it for a list of faces. -/
theorem pick_faces {fs : List Face} {size : V3 ℝ} (hf : Covers fs size) (h0 : 0 < size.x ∧ 0 < size.y ∧ 0 < size.z) (r : Ray ℝ)
    (ho : comps r.origin ∉ AABB.pts (centered size)) (eps big : ℝ) (he : 0 < eps) (hb : 0 ≤ big)
    (hd : AABB.Props.ClearDirection eps (comps r.direction)) (p : V3 ℝ) :
    AABB.rayHitPoint eps big (centered size) (comps r.origin) (comps r.direction) = some (comps p) ↔
      (∃ f ∈ fs, Picks f r p) ∧ ∃ s, 0 ≤ s ∧ s ≤ big ∧ p = at_ r s := by
  have hv : AABB.Valid (centered size) := by
    intro i
    fin_cases i <;> simp [centered] <;> linarith [h0.1, h0.2.1, h0.2.2]
  obtain ⟨k1, k2⟩ := AABB.Props.C07_point eps big he hb (centered size) hv (comps r.origin) (comps r.direction) hd
  have hh : ∀ t, t ∈ AABB.Props.hits (centered size) (comps r.origin) (comps r.direction) 0 big ↔
      0 ≤ t ∧ t ≤ big ∧ comps (at_ r t) ∈ AABB.pts (centered size) := by
    intro t
    simp only [AABB.Props.hits, AABB.pts, Set.mem_ofPred_eq, comps_at']
  have hleast : ∀ t, IsLeast (AABB.Props.hits (centered size) (comps r.origin) (comps r.direction) 0 big) t →
      IsLeast {s | 0 ≤ s ∧ comps (at_ r s) ∈ AABB.pts (centered size)} t := by
    rintro t ⟨h1, h2⟩
    rw [hh] at h1
    refine ⟨⟨h1.1, h1.2.2⟩, fun s hs => ?_⟩
    rcases le_total s big with h | h
    · exact h2 ((hh s).2 ⟨hs.1, h, hs.2⟩)
    · exact h1.2.1.trans h
  have hori : at_ r 0 = r.origin := by simp only [at_]; apply V3.ext <;> simp
  constructor
  · intro h
    obtain ⟨-, t, ht, hl⟩ := k1 _ h
    rw [comps_at] at ht
    obtain rfl := comps_inj ht
    have hl' := hleast t hl
    have ht0 : 0 < t := by
      refine lt_of_le_of_ne hl'.1.1 fun h => ho ?_
      have := hl'.1.2
      rwa [← h, hori] at this
    refine ⟨?_, t, ht0.le, ((hh t).1 hl.1).2.1, rfl⟩
    obtain ⟨i, e, hes, hed, hex⟩ := enters size r t ht0 hl'
    obtain ⟨gs, hg, hsub⟩ := hf.2 i e hes
    obtain ⟨f, hfm, hin⟩ := hg.2 _ hl'.1.2 hex
    obtain ⟨⟨c, hc, hfc⟩, -⟩ := hg.1 f hfm
    have hneg : facing f.tri r.direction < 0 := by rw [hfc]; exact mul_neg_of_pos_of_neg hc hed
    obtain ⟨q, hq⟩ := (Triangle.Props.C22_barycentric_partial f.tri r hneg).2 ⟨t, ht0, hin⟩
    refine ⟨f, hsub f hfm, q, hq, ?_⟩
    obtain ⟨-, s, -, hs, hsl⟩ := picks_least hf r f (hsub f hfm) _ ⟨q, hq, rfl⟩
    rw [hs, hsl.unique hl']
  · rintro ⟨⟨f, hfm, hp⟩, s, hs0, hsb, hps⟩
    obtain ⟨hne, s', hs', hps', hl⟩ := picks_least hf r f hfm p hp
    have hss : s = s' := by
      by_contra hc
      apply hne
      rw [hps] at hps'
      have hi : ∀ i, comps r.direction i = comps 0 i := by
        intro i
        have h1 := congrFun (congrArg comps hps') i
        rw [comps_at', comps_at'] at h1
        have h2 : (s - s') * comps r.direction i = 0 := by linarith
        rw [(mul_eq_zero.1 h2).resolve_left (sub_ne_zero.2 hc)]
        fin_cases i <;> simp [comps]
      exact comps_inj (funext hi)
    subst hss
    obtain ⟨p', hp'⟩ := k2.2 ⟨s, (hh s).2 ⟨hs0, hsb, hl.1.2⟩⟩
    obtain ⟨-, t, ht, htl⟩ := k1 p' hp'
    rw [comps_at] at ht
    have := (hleast t htl).unique hl
    rw [hp', ht, this, hps]

/-- C103: for each ray from outside of a generated cuboid, the triangles that are hit by `IntersectionWithTriangleBarycentric` are all hit in the
same point, where the ray enters the box; and `IntersectionWithAABB` reports this point exactly if some triangle is hit (within the
range of numbers). -/
theorem C103_cuboid (sx sy : ℝ) (hx : sx = 1 ∨ sx = -1) (hy : sy = 1 ∨ sy = -1) (d : CuboidDesc) (m : M)
    (h0 : 0 < d.size.x ∧ 0 < d.size.y ∧ 0 < d.size.z)
    (h1 : (max 1 d.segsY + 1) * (max 1 d.segsX + 1) ≤ 2 ^ 32) (h2 : (max 1 d.segsY + 1) * (max 1 d.segsZ + 1) ≤ 2 ^ 32)
    (h3 : (max 1 d.segsZ + 1) * (max 1 d.segsX + 1) ≤ 2 ^ 32) :
    ∃ m' fs, genCuboid sx sy d m = .ok m' ∧ NewFaces m m' fs ∧
      ∀ r : Ray ℝ, comps r.origin ∉ AABB.pts (centered d.size) →
        (∀ f ∈ fs, ∀ p, Picks f r p →
          ∃ s, 0 < s ∧ p = at_ r s ∧ IsLeast {s | 0 ≤ s ∧ comps (at_ r s) ∈ AABB.pts (centered d.size)} s) ∧
        ∀ eps big, 0 < eps → 0 ≤ big → AABB.Props.ClearDirection eps (comps r.direction) → ∀ p,
          (AABB.rayHitPoint eps big (centered d.size) (comps r.origin) (comps r.direction) = some (comps p) ↔
            (∃ f ∈ fs, Picks f r p) ∧ ∃ s, 0 ≤ s ∧ s ≤ big ∧ p = at_ r s) := by
  obtain ⟨m', e, hf⟩ := C42_faces sx sy hx hy d m h1 h2 h3
  have p1 : 1 ≤ max 1 d.segsX := le_max_left _ _
  have p2 : 1 ≤ max 1 d.segsY := le_max_left _ _
  have p3 : 1 ≤ max 1 d.segsZ := le_max_left _ _
  obtain ⟨⟨X, Y, Z⟩, segsX, segsY, segsZ, alt⟩ := d
  obtain ⟨hX, hY, hZ⟩ := h0
  dsimp only at *
  generalize max 1 segsX = A at *
  generalize max 1 segsY = B at *
  generalize max 1 segsZ = C at *
  have z1 := side_z alt A B p1 p2 X Y Z hX hY (-1) (.inr rfl) hZ
  have z2 := side_z alt A B p1 p2 X Y Z hX hY 1 (.inl rfl) hZ
  have x1 := side_x alt C B p3 p2 X Y Z hX hY sy hy hZ
  have x2 := side_x alt C B p3 p2 X Y Z hX hY (-sy) (by rcases hy with rfl | rfl <;> simp) hZ
  have y1 := side_y alt A C p1 p3 X Y Z hX hY sx hx hZ
  have y2 := side_y alt A C p1 p3 X Y Z hX hY (-sx) (by rcases hx with rfl | rfl <;> simp) hZ
  rw [cells_rect alt A B p1 p2 ⟨(-1) * X / 2, -Y / 2, (-1) * Z / 2⟩ ⟨0, Y, 0⟩ ⟨-(-1) * X, 0, 0⟩ _ (fun v u => by apply V3.ext <;> simp <;> ring),
    cells_rect alt A B p1 p2 ⟨1 * X / 2, -Y / 2, 1 * Z / 2⟩ ⟨0, Y, 0⟩ ⟨-1 * X, 0, 0⟩ _ (fun v u => by apply V3.ext <;> simp <;> ring),
    cells_rect alt C B p3 p2 ⟨sy * X / 2, -Y / 2, -sy * Z / 2⟩ ⟨0, Y, 0⟩ ⟨0, 0, sy * Z⟩ _ (fun v u => by apply V3.ext <;> simp <;> ring),
    cells_rect alt C B p3 p2 ⟨-sy * X / 2, -Y / 2, -(-sy) * Z / 2⟩ ⟨0, Y, 0⟩ ⟨0, 0, -sy * Z⟩ _ (fun v u => by apply V3.ext <;> simp <;> ring),
    cells_rect alt A C p1 p3 ⟨-X / 2, sx * Y / 2, -sx * Z / 2⟩ ⟨0, 0, sx * Z⟩ ⟨X, 0, 0⟩ _ (fun v u => by apply V3.ext <;> simp <;> ring),
    cells_rect alt A C p1 p3 ⟨-X / 2, -sx * Y / 2, -(-sx) * Z / 2⟩ ⟨0, 0, -sx * Z⟩ ⟨X, 0, 0⟩ _ (fun v u => by apply V3.ext <;> simp <;> ring)] at hf
  generalize rect alt A B _ _ _ = g1 at *
  generalize rect alt A B _ _ _ = g2 at *
  generalize rect alt C B _ _ _ = g3 at *
  generalize rect alt C B _ _ _ = g4 at *
  generalize rect alt A C _ _ _ = g5 at *
  generalize rect alt A C _ _ _ = g6 at *
  have hc : Covers (g1 ++ g2 ++ g3 ++ g4 ++ g5 ++ g6) ⟨X, Y, Z⟩ := by
    have hx' : -sx = 1 ∨ -sx = -1 := by rcases hx with rfl | rfl <;> simp
    have hy' : -sy = 1 ∨ -sy = -1 := by rcases hy with rfl | rfl <;> simp
    constructor
    · intro f hf
      simp only [List.mem_append] at hf
      rcases hf with ((((hf | hf) | hf) | hf) | hf) | hf
      · exact ⟨_, _, _, z1, .inr rfl, hf⟩
      · exact ⟨_, _, _, z2, .inl rfl, hf⟩
      · exact ⟨_, _, _, x1, hy, hf⟩
      · exact ⟨_, _, _, x2, hy', hf⟩
      · exact ⟨_, _, _, y1, hx, hf⟩
      · exact ⟨_, _, _, y2, hx', hf⟩
    · intro i s hs
      fin_cases i
      · rcases hs with rfl | rfl <;> rcases hy with rfl | rfl
        · exact ⟨g3, x1, fun f hf => by simp [hf]⟩
        · exact ⟨g4, by simpa using x2, fun f hf => by simp [hf]⟩
        · exact ⟨g4, x2, fun f hf => by simp [hf]⟩
        · exact ⟨g3, x1, fun f hf => by simp [hf]⟩
      · rcases hs with rfl | rfl <;> rcases hx with rfl | rfl
        · exact ⟨g5, y1, fun f hf => by simp [hf]⟩
        · exact ⟨g6, by simpa using y2, fun f hf => by simp [hf]⟩
        · exact ⟨g6, y2, fun f hf => by simp [hf]⟩
        · exact ⟨g5, y1, fun f hf => by simp [hf]⟩
      · rcases hs with rfl | rfl
        · exact ⟨g2, z2, fun f hf => by simp [hf]⟩
        · exact ⟨g1, z1, fun f hf => by simp [hf]⟩
  refine ⟨m', _, e, hf, fun r hr => ⟨fun f hfm p hp => (picks_least hc r f hfm p hp).2, fun eps big he hb hd p => ?_⟩⟩
  exact pick_faces hc ⟨hX, hY, hZ⟩ r hr eps big he hb hd p

/-- A ray from (5, 1/4, 1/8) to the cube of size 2, which enters it at (1, 1/4, 1/8). -/
example : comps (⟨5, 1 / 4, 1 / 8⟩ : V3 ℝ) ∉ AABB.pts (centered ⟨2, 2, 2⟩) ∧ AABB.Props.ClearDirection (1 / 100) (comps (⟨-1, 0, 0⟩ : V3 ℝ)) ∧
    (0 : ℝ) < (⟨2, 2, 2⟩ : V3 ℝ).x ∧
    IsLeast {s | 0 ≤ s ∧ comps (at_ ⟨⟨5, 1 / 4, 1 / 8⟩, ⟨-1, 0, 0⟩⟩ s) ∈ AABB.pts (centered ⟨2, 2, 2⟩)} 4 := by
  simp only [mem_centered]
  refine ⟨by norm_num, ?_, by norm_num, ⟨by norm_num, by norm_num [at_]⟩, ?_⟩
  · intro i
    fin_cases i <;> norm_num [comps]
  · rintro s ⟨h0, h1, -⟩
    norm_num [at_] at h1
    linarith

end Geom.Gen
