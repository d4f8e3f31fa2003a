import Verif.Proof.Solid
import Verif.Props.Convex
import Verif.Props.TriangleRay
import Verif.Props.Winding
import Verif.Props.Volume
import Verif.Props.Sphere

/-
  C105: picking closed, convex meshes with a ray.
-/
set_option autoImplicit false
set_option linter.unusedSectionVars false

namespace Geom.Gen.Solid
open TMesh (Mesh Vertex Ix)
open Spec
open Triangle.Spec (InTri facing at_)
open Plane (Ray)

/-- In front of a face, if positive. -/
def side (f : Face) (x : V3 ℝ) : ℝ := V3.dot (facet f.1 f.2.1 f.2.2) (x - f.1)

/-- The points behind all faces. -/
def behind (fs : List Face) : Set (V3 ℝ) := {x | ∀ f ∈ fs, side f x ≤ 0}

theorem side_line (f : Face) (x d : V3 ℝ) (s : ℝ) : side f (x + s • d) = side f x + s * V3.dot (facet f.1 f.2.1 f.2.2) d := by
  simp [side, V3.dot]; ring

theorem side_combo (f : Face) (x y : V3 ℝ) (a b : ℝ) (h : a + b = 1) : side f (a • x + b • y) = a * side f x + b * side f y := by
  obtain rfl : a = 1 - b := by linarith
  simp [side, V3.dot]; ring

theorem convex_behind (fs : List Face) : Convex ℝ (behind fs) := by
  intro x hx y hy a b ha hb hab f hf
  rw [side_combo f x y a b hab]
  have := mul_nonneg ha (neg_nonneg.2 (hx f hf))
  have := mul_nonneg hb (neg_nonneg.2 (hy f hf))
  linarith

theorem body_behind {fs : List Face} (hc : ConvexFaces fs) : body fs ⊆ behind fs :=
  convexHull_min (fun p hp f hf => hc f hf p hp) (convex_behind fs)

theorem tri_body {fs : List Face} {g : Face} (hg : g ∈ fs) {x : V3 ℝ} (h : InTri g.tri x) : x ∈ body fs := by
  obtain ⟨u, v, w, hu, hv, hw, h1, rfl⟩ := h
  unfold body
  have c1 : g.1 ∈ convexHull ℝ (corners fs) := subset_convexHull ℝ _ ⟨g, hg, .inl rfl⟩
  have c2 : g.2.1 ∈ convexHull ℝ (corners fs) := subset_convexHull ℝ _ ⟨g, hg, .inr (.inl rfl)⟩
  have c3 : g.2.2 ∈ convexHull ℝ (corners fs) := subset_convexHull ℝ _ ⟨g, hg, .inr (.inr rfl)⟩
  have := (convex_convexHull ℝ (corners fs)).sum_mem (t := Finset.univ) (w := ![u, v, w]) (z := ![g.1, g.2.1, g.2.2])
    (by intro i _; fin_cases i <;> simp [hu, hv, hw]) (by simp [Fin.sum_univ_three, h1]) (by intro i _; fin_cases i <;> simp [c1, c2, c3])
  simpa [Fin.sum_univ_three, Face.tri] using this

theorem facing_eq (f : Face) (d : V3 ℝ) : facing f.tri d = V3.dot (facet f.1 f.2.1 f.2.2) d := by
  simp [facing, Face.tri, facet, V3.dot]

/-- The sum over the faces of the part of the edges. -/
theorem bsum_ge {w : V3 ℝ → V3 ℝ → ℝ} {l : List Face} (h : ∀ f ∈ l, 0 ≤ w f.1 f.2.1 + w f.2.1 f.2.2 + w f.2.2 f.1) :
    0 ≤ bsum w l ∧ ∀ g ∈ l, w g.1 g.2.1 + w g.2.1 g.2.2 + w g.2.2 g.1 ≤ bsum w l := by
  induction l with
  | nil => exact ⟨le_of_eq bsum_nil.symm, fun g hg => absurd hg List.not_mem_nil⟩
  | cons x l ih =>
    have i := ih fun f hf => h f (List.mem_cons_of_mem _ hf)
    have x0 := h x (List.mem_cons_self ..)
    rw [bsum_cons]
    refine ⟨add_nonneg x0 i.1, fun g hg => ?_⟩
    rcases List.mem_cons.1 hg with rfl | hg
    · linarith [i.1]
    · linarith [i.2 g hg]

/-- The area vectors of a closed surface: if one has a direction, another one has the opposite. -/
theorem opposite {fs : List Face} (hw : Watertight fs) (d : V3 ℝ) {f : Face} (hf : f ∈ fs) (h : 0 < V3.dot (facet f.1 f.2.1 f.2.2) d) :
    ∃ g ∈ fs, V3.dot (facet g.1 g.2.1 g.2.2) d < 0 := by
  by_contra hno
  push Not at hno
  let w : V3 ℝ → V3 ℝ → ℝ := fun x y => V3.dot (V3.cross x y) d
  have hwa : Anti w := by intro x y; simp [w, V3.dot]; ring
  have e : ∀ g : Face, w g.1 g.2.1 + w g.2.1 g.2.2 + w g.2.2 g.1 = V3.dot (facet g.1 g.2.1 g.2.2) d := by
    intro g; simp [w, V3.dot, facet]; ring
  have := (bsum_ge (w := w) (l := fs) fun g hg => by rw [e]; exact hno g hg).2 f hf
  rw [watertight_bsum hwa hw, e] at this
  linarith

/-- A surface with a volume has a face with an area. -/
theorem exists_face {fs : List Face} (hv : volume fs ≠ 0) : ∃ f ∈ fs, facet f.1 f.2.1 f.2.2 ≠ 0 := by
  by_contra hno
  push Not at hno
  apply hv
  have : ∀ f ∈ fs, spat f = 0 := by
    intro f hf
    have e : spat f = V3.dot (facet f.1 f.2.1 f.2.2) f.1 := by simp [spat, facet, V3.dot]; ring
    rw [e, hno f hf]; simp [V3.dot]
  rw [volume, List.sum_eq_zero (fun x hx => ?_), zero_div]
  obtain ⟨f, hf, rfl⟩ := List.mem_map.1 hx
  exact this f hf

/-- A surface with a volume is not flat. -/
theorem thick {fs : List Face} (hw : Watertight fs) (hc : ConvexFaces fs) (hv : volume fs ≠ 0) {f : Face} (hf : f ∈ fs) (hn : facet f.1 f.2.1 f.2.2 ≠ 0) :
    ∃ p ∈ corners fs, V3.dot (facet f.1 f.2.1 f.2.2) (p - f.1) < 0 := by
  by_contra hno
  push Not at hno
  have flat : ∀ p ∈ corners fs, V3.dot (facet f.1 f.2.1 f.2.2) (p - f.1) = 0 := fun p hp => le_antisymm (hc f hf p hp) (hno p hp)
  apply hv
  rw [← C95_moved fs hw (-f.1), volume, List.sum_eq_zero (fun x hx => ?_), zero_div]
  rw [List.map_map] at hx
  obtain ⟨g, hg, rfl⟩ := List.mem_map.1 hx
  have a := flat g.1 ⟨g, hg, .inl rfl⟩
  have b := flat g.2.1 ⟨g, hg, .inr (.inl rfl)⟩
  have c := flat g.2.2 ⟨g, hg, .inr (.inr rfl)⟩
  have hcp := cross_plane b c
  have e := congrArg (V3.dot (g.1 - f.1)) hcp
  rw [dot_smul, dot_smul] at e
  have comm : V3.dot (g.1 - f.1) (facet f.1 f.2.1 f.2.2) = 0 := by rw [← a]; unfold V3.dot; ring
  rw [comm, mul_zero] at e
  have z := (mul_eq_zero.1 e).resolve_left (dot_self_pos hn).ne'
  refine Eq.trans ?_ z
  simp [spat, V3.dot]; ring

section
variable {fs : List Face} (hw : Watertight fs) (hc : ConvexFaces fs) (hp : Proper fs) (hv : volume fs ≠ 0)
include hw hc hp hv

theorem cover {f : Face} (hf : f ∈ fs) (hn : facet f.1 f.2.1 f.2.2 ≠ 0) {y : V3 ℝ} (hy : y ∈ behind fs) (h0 : side f y = 0) :
    ∃ g ∈ fs, InTri g.tri y ∧ ∃ k : ℝ, 0 < k ∧ facet g.1 g.2.1 g.2.2 = k • facet f.1 f.2.1 f.2.2 := by
  obtain ⟨g, hg, h1, h2⟩ := facet_cover hw hc hp hf hn (thick hw hc hv hf hn) hy h0
  exact ⟨g, hg, h2, h1.1⟩

/-- From a point of the solid into a direction to the outside. -/
theorem exit {x d : V3 ℝ} (hx : x ∈ behind fs) (hd : ∃ g ∈ fs, 0 < V3.dot (facet g.1 g.2.1 g.2.2) d) : ∃ s : ℝ, 0 ≤ s ∧ x + s • d ∈ body fs := by
  let G : Set Face := {g | g ∈ fs ∧ 0 < V3.dot (facet g.1 g.2.1 g.2.2) d}
  obtain ⟨f, ⟨hf, hfd⟩, hmin⟩ := Set.exists_min_image G (fun g => -side g x / V3.dot (facet g.1 g.2.1 g.2.2) d)
    (fs.finite_toSet.subset fun g hg => hg.1) (by obtain ⟨g, h1, h2⟩ := hd; exact ⟨g, h1, h2⟩)
  refine ⟨-side f x / V3.dot (facet f.1 f.2.1 f.2.2) d, div_nonneg (neg_nonneg.2 (hx f hf)) hfd.le, ?_⟩
  have hs0 : 0 ≤ -side f x / V3.dot (facet f.1 f.2.1 f.2.2) d := div_nonneg (neg_nonneg.2 (hx f hf)) hfd.le
  have hb : x + (-side f x / V3.dot (facet f.1 f.2.1 f.2.2) d) • d ∈ behind fs := by
    intro g hg
    rw [side_line]
    rcases le_or_gt (V3.dot (facet g.1 g.2.1 g.2.2) d) 0 with h | h
    · have := mul_nonneg hs0 (neg_nonneg.2 h)
      have := hx g hg
      linarith
    · have := (le_div_iff₀ h).1 (hmin g ⟨hg, h⟩)
      linarith
  have h0 : side f (x + (-side f x / V3.dot (facet f.1 f.2.1 f.2.2) d) • d) = 0 := by
    rw [side_line, div_mul_cancel₀ _ hfd.ne']; ring
  have hn : facet f.1 f.2.1 f.2.2 ≠ 0 := by
    intro e
    rw [e] at hfd
    simp [V3.dot] at hfd
  obtain ⟨g, hg, h1, _⟩ := cover hw hc hp hv hf hn hb h0
  exact tri_body hg h1

/-- The convex combinations of the corners are the points behind all faces. -/
theorem body_eq : body fs = behind fs := by
  refine Set.Subset.antisymm (body_behind hc) fun x hx => ?_
  obtain ⟨f, hf, hn⟩ := exists_face hv
  have h1 := dot_self_pos hn
  obtain ⟨s, hs, hs'⟩ := exit hw hc hp hv hx ⟨f, hf, h1⟩
  obtain ⟨g, hg, h2⟩ := opposite hw _ hf h1
  obtain ⟨t, ht, ht'⟩ := exit hw hc hp hv (d := -facet f.1 f.2.1 f.2.2) hx ⟨g, hg, by
    have : V3.dot (facet g.1 g.2.1 g.2.2) (-facet f.1 f.2.1 f.2.2) = -V3.dot (facet g.1 g.2.1 g.2.2) (facet f.1 f.2.1 f.2.2) := by simp [V3.dot]; ring
    rw [this]; linarith⟩
  rcases hs.eq_or_lt with e | hs0
  · rw [← e, zero_smul, add_zero] at hs'; exact hs'
  · have hst : 0 < s + t := by linarith
    have := convex_convexHull ℝ (corners fs) hs' ht' (show 0 ≤ t / (s + t) by positivity) (show 0 ≤ s / (s + t) by positivity) (by field_simp; ring)
    have e : (t / (s + t)) • (x + s • facet f.1 f.2.1 f.2.2) + (s / (s + t)) • (x + t • -facet f.1 f.2.1 f.2.2) = x := by
      ext <;> simp <;> field_simp <;> ring
    rw [e] at this
    exact this

end

end Geom.Gen.Solid

namespace Geom.Gen
open TMesh (Mesh Vertex Ix)
open Spec
open Triangle.Spec (InTri facing at_)
open Plane (Ray)
open Solid

/-- What is known about a picked point. -/
theorem picks_spec {f : Face} {r : Ray ℝ} {p : V3 ℝ} (h : Picks f r p) :
    ∃ s, 0 < s ∧ p = at_ r s ∧ InTri f.tri p ∧ V3.dot (facet f.1 f.2.1 f.2.2) r.direction < 0 := by
  obtain ⟨q, hq, rfl⟩ := h
  obtain ⟨⟨h1, h2, h3, h4⟩, s, hs, e⟩ := Triangle.Props.C22_coordinates f.tri r q hq
  refine ⟨s, hs, e, ⟨q.x, q.y, q.z, h1, h2, h3, h4, rfl⟩, ?_⟩
  rw [← facing_eq]
  by_contra hn
  rw [Triangle.Props.C22_back f.tri r (not_lt.1 hn)] at hq
  cases hq

/-- C105: in a closed, convex mesh with a volume, the query for rays and triangles hits exactly at the first point of the ray in the
solid, if the ray starts outside of it. -/
theorem C105_pick (fs : List Face) (hw : Watertight fs) (hc : ConvexFaces fs) (hp : Proper fs) (hv : volume fs ≠ 0) (r : Ray ℝ) (p : V3 ℝ) :
    (∃ f ∈ fs, Picks f r p) ↔ r.origin ∉ body fs ∧ ∃ s, p = at_ r s ∧ IsLeast {s | 0 ≤ s ∧ at_ r s ∈ body fs} s := by
  rw [body_eq hw hc hp hv]
  constructor
  · rintro ⟨f, hf, h⟩
    obtain ⟨s, hs, e, ht, hd⟩ := picks_spec h
    have hb : p ∈ behind fs := body_behind hc (tri_body hf ht)
    have h0 : side f p = 0 := by
      obtain ⟨u, v, w, _, _, _, h1, rfl⟩ := ht
      obtain rfl : u = 1 - v - w := by linarith
      simp [side, Face.tri, facet, V3.dot]; ring
    have before : ∀ s', s' < s → at_ r s' ∉ behind fs := by
      intro s' hs' hm
      have := hm f hf
      rw [e] at h0
      unfold at_ at h0 this
      rw [side_line] at h0 this
      have := mul_pos_of_neg_of_neg (show s' - s < 0 by linarith) hd
      nlinarith
    refine ⟨fun ho => before 0 hs (by simpa [at_] using ho), s, e, ⟨hs.le, e ▸ hb⟩, fun s' hs' => ?_⟩
    by_contra hlt
    exact before s' (not_le.1 hlt) hs'.2
  · rintro ⟨ho, s, rfl, ⟨hs, hm⟩, hleast⟩
    -- the last plane that is crossed
    have hex : ∃ f ∈ fs, side f (at_ r s) = 0 ∧ V3.dot (facet f.1 f.2.1 f.2.2) r.direction < 0 := by
      let G : Set Face := {g | g ∈ fs ∧ 0 < side g r.origin}
      have hG : G.Nonempty := by
        by_contra hne
        rw [Set.not_nonempty_iff_eq_empty] at hne
        refine ho fun g hg => ?_
        by_contra hlt
        have : g ∈ G := ⟨hg, not_le.1 hlt⟩
        rw [hne] at this
        exact this
      have hdir : ∀ g ∈ G, V3.dot (facet g.1 g.2.1 g.2.2) r.direction < 0 ∧ side g r.origin / -V3.dot (facet g.1 g.2.1 g.2.2) r.direction ≤ s := by
        rintro g ⟨hg, hpos⟩
        have := hm g hg
        unfold at_ at this
        rw [side_line] at this
        have hneg : V3.dot (facet g.1 g.2.1 g.2.2) r.direction < 0 := by
          by_contra hn
          have := mul_nonneg hs (not_lt.1 hn)
          linarith
        refine ⟨hneg, (div_le_iff₀ (by linarith)).2 (by linarith)⟩
      obtain ⟨f, hf, hmax⟩ := Set.exists_max_image G (fun g => side g r.origin / -V3.dot (facet g.1 g.2.1 g.2.2) r.direction)
        (fs.finite_toSet.subset fun g hg => hg.1) hG
      obtain ⟨hd, hle⟩ := hdir f hf
      have ht0 : 0 ≤ side f r.origin / -V3.dot (facet f.1 f.2.1 f.2.2) r.direction := div_nonneg hf.2.le (by linarith)
      have hin : at_ r (side f r.origin / -V3.dot (facet f.1 f.2.1 f.2.2) r.direction) ∈ behind fs := by
        intro g hg
        unfold at_
        rw [side_line]
        rcases le_or_gt (side g r.origin) 0 with h | h
        · have h2 := hm g hg
          unfold at_ at h2
          rw [side_line] at h2
          rcases le_or_gt (V3.dot (facet g.1 g.2.1 g.2.2) r.direction) 0 with h3 | h3
          · have := mul_nonneg ht0 (neg_nonneg.2 h3); linarith
          · have := mul_le_mul_of_nonneg_right hle h3.le; linarith
        · have h2 := (hdir g ⟨hg, h⟩).1
          have := (div_le_iff₀ (show 0 < -V3.dot (facet g.1 g.2.1 g.2.2) r.direction by linarith)).1 (hmax g ⟨hg, h⟩)
          linarith
      have hs' := hleast ⟨ht0, hin⟩
      have e := le_antisymm hs' hle
      refine ⟨f, hf.1, ?_, hd⟩
      rw [e]
      unfold at_
      rw [side_line, div_neg, neg_mul, div_mul_cancel₀ _ hd.ne]; ring
    obtain ⟨f, hf, h0, hd⟩ := hex
    have hn : facet f.1 f.2.1 f.2.2 ≠ 0 := by
      intro e
      rw [e] at hd
      simp [V3.dot] at hd
    obtain ⟨g, hg, hin, k, hk, ek⟩ := cover hw hc hp hv hf hn hm h0
    have hs0 : 0 < s := by
      refine hs.lt_of_ne fun e => ho ?_
      rw [← e] at hm
      simpa [at_] using hm
    have hgd : V3.dot (facet g.1 g.2.1 g.2.2) r.direction < 0 := by rw [ek, smul_dot]; exact mul_neg_of_pos_of_neg hk hd
    obtain ⟨q, hq⟩ := (Triangle.Props.C22_barycentric_partial g.tri r (by rw [facing_eq]; exact hgd)).2 ⟨s, hs0, hin⟩
    refine ⟨g, hg, q, hq, ?_⟩
    obtain ⟨⟨_, _, _, h4⟩, s', hs', e⟩ := Triangle.Props.C22_coordinates g.tri r q hq
    have z1 : side g (at_ r s) = 0 := by
      obtain ⟨u, v, w, _, _, _, h1, e1⟩ := hin
      rw [e1]
      obtain rfl : u = 1 - v - w := by linarith
      simp [side, Face.tri, facet, V3.dot]; ring
    have z2 : side g (at_ r s') = 0 := by
      rw [← e]
      have hx : q.x = 1 - q.y - q.z := by linarith
      rw [hx]
      simp [side, Face.tri, facet, V3.dot]; ring
    have : s = s' := by
      unfold at_ at z1 z2
      rw [side_line] at z1 z2
      have : (s - s') * V3.dot (facet g.1 g.2.1 g.2.2) r.direction = 0 := by linarith
      have := (mul_eq_zero.1 this).resolve_right hgd.ne
      linarith
    rw [this]
    exact e.symm

/-- The new faces of a convex mesh. -/
theorem solid_faces {m m' : M} {fs : List Face} {nv nt : ℕ} {P : Vertex ℝ → Prop} {dir : Vertex ℝ → V3 ℝ} (hf : NewFaces m m' fs) (hg : Grows m m' nv nt P)
    (hc : AddsConvex m m') (hi : AddsTriangles m m' (InFrontOrFlat dir)) : ConvexFaces fs ∧ Proper fs := by
  obtain ⟨ts, e, hm⟩ := hf
  obtain ⟨ts1, e1, _, hg⟩ := hg.tris
  obtain ⟨vs, _, ev, ts2, _, e2, hc⟩ := hc
  obtain ⟨ts3, _, e3, hi⟩ := hi
  obtain rfl := List.append_cancel_left (e.symm.trans e1)
  obtain rfl := List.append_cancel_left (e.symm.trans e2)
  obtain rfl := List.append_cancel_left (e.symm.trans e3)
  have back : ∀ f ∈ fs, ∃ t ∈ ts, face m' t = some f := by
    intro f hf
    have : some f ∈ ts.map (face m') := by rw [hm]; exact List.mem_map_of_mem hf
    obtain ⟨t, ht, e⟩ := List.mem_map.1 this
    exact ⟨t, ht, e⟩
  have newv : ∀ t ∈ ts, ∀ i ∈ [t.a, t.b, t.c], ∀ v, m'.vertices[i]? = some v → v ∈ vs := by
    intro t ht i hi v hv
    have h1 := (hg t ht i hi).1
    rw [ev, List.getElem?_append_right h1] at hv
    exact List.mem_of_getElem? hv
  have cor : ∀ p ∈ corners fs, ∃ v ∈ vs, v.position = p := by
    rintro p ⟨f, hf, hp⟩
    obtain ⟨t, ht, e⟩ := back f hf
    obtain ⟨a, b, c, ha, hb, hc, _⟩ := hc t ht
    simp only [face, ha, hb, hc, Option.some.injEq] at e
    subst e
    rcases hp with rfl | rfl | rfl
    · exact ⟨a, newv t ht _ (by simp) a ha, rfl⟩
    · exact ⟨b, newv t ht _ (by simp) b hb, rfl⟩
    · exact ⟨c, newv t ht _ (by simp) c hc, rfl⟩
  constructor
  · intro f hf p hp
    obtain ⟨v, hv, rfl⟩ := cor p hp
    obtain ⟨t, ht, e⟩ := back f hf
    obtain ⟨a, b, c, ha, hb, hc, h⟩ := hc t ht
    simp only [face, ha, hb, hc, Option.some.injEq] at e
    subst e
    exact h v hv
  · intro f hf
    obtain ⟨t, ht, e⟩ := back f hf
    obtain ⟨a, b, c, ha, hb, hc, h⟩ := hi t ht
    simp only [face, ha, hb, hc, Option.some.injEq] at e
    subst e
    rcases h with h | h
    · exact .inl h
    · refine .inr fun e => ?_
      have := h.1
      rw [e] at this
      simp [V3.dot] at this

theorem infront_flat {m m' : M} {dir : Vertex ℝ → V3 ℝ} (h : AddsTriangles m m' (InFront dir)) : AddsTriangles m m' (InFrontOrFlat dir) := by
  obtain ⟨ts, h1, h2, h3⟩ := h
  refine ⟨ts, h1, h2, fun t ht => ?_⟩
  obtain ⟨a, b, c, ha, hb, hc, h⟩ := h3 t ht
  exact ⟨a, b, c, ha, hb, hc, .inr h⟩

theorem newFaces_unique {m m' : M} {fs gs : List Face} (h : NewFaces m m' fs) (h' : NewFaces m m' gs) : fs = gs := by
  obtain ⟨ts, e, hm⟩ := h
  obtain ⟨ts', e', hm'⟩ := h'
  obtain rfl := List.append_cancel_left (e.symm.trans e')
  exact List.map_injective_iff.2 (Option.some_injective _) (hm.symm.trans hm')

theorem fan_pos {n : ℕ} (hn : 3 ≤ n) : 0 < fan n (2 * Real.pi) := by
  have h3 : (3 : ℝ) ≤ n := by exact_mod_cast hn
  have := Real.pi_pos
  refine mul_pos (by linarith) (Real.sin_pos_of_pos_of_lt_pi (by positivity) ?_)
  rw [div_lt_iff₀ (by linarith)]
  nlinarith

theorem picksSolid_of {m m' : M} {fs gs : List Face} {nv nt : ℕ} {P : Vertex ℝ → Prop} {dir : Vertex ℝ → V3 ℝ} (hf : NewFaces m m' fs) (hw : Watertight fs)
    (hf' : NewFaces m m' gs) (hv : 0 < volume gs) (hg : Grows m m' nv nt P) (hc : AddsConvex m m') (hi : AddsTriangles m m' (InFrontOrFlat dir)) : PicksSolid m m' := by
  obtain rfl := newFaces_unique hf hf'
  obtain ⟨h1, h2⟩ := solid_faces hf hg hc hi
  refine ⟨fs, hf, ?_, C105_pick fs hw h1 h2 hv.ne'⟩
  obtain ⟨f, hf, _⟩ := exists_face hv.ne'
  exact ⟨f.1, subset_convexHull ℝ _ ⟨f, hf, .inl rfl⟩⟩

/-- C105: cylinders with both covers. -/
theorem C105_cylinder (d : CylinderDesc) (m : M) (hx : 0 < d.radius.x) (hz : 0 < d.radius.y) (hh : 0 < d.height) (hB1 : 1 ≤ d.bottomCov) (hT1 : 1 ≤ d.topCov)
    (hH : max 3 d.segsX + 1 < 2 ^ 32) (hV : 2 * (max 1 d.segsY + 1) ≤ 2 ^ 32) (hB : 2 * d.bottomCov ≤ 2 ^ 32) (hT : 2 * d.topCov ≤ 2 ^ 32) :
    ∃ m', genCylinder d m = .ok m' ∧ PicksSolid m m' := by
  obtain ⟨m', fs, e, hf, hw⟩ := C92_cylinder d m hB1 hT1 hH hV hB hT
  obtain ⟨m1, gs, e1, hf', hv⟩ := C95_cylinder d m hB1 hT1 hH hV hB hT
  obtain ⟨m2, e2, hc⟩ := C93_cylinder d m hx.le hz.le hh.le hH hV hB hT
  obtain ⟨m3, e3, hi⟩ := C91_cylinder d m hx hz hh hH hV hB hT 1 1 one_pos one_pos
  obtain ⟨m4, e4, hg, _⟩ := C44_cylinder d m hH (by omega) (by omega) (by omega)
  obtain rfl := Res.ok.inj (e.symm.trans e1)
  obtain rfl := Res.ok.inj (e.symm.trans e2)
  obtain rfl := Res.ok.inj (e.symm.trans e3)
  obtain rfl := Res.ok.inj (e.symm.trans e4)
  refine ⟨_, e, picksSolid_of hf hw hf' ?_ hg hc (infront_flat hi)⟩
  rw [hv]
  have := fan_pos (le_max_left 3 d.segsX)
  positivity

example := C105_cylinder ⟨⟨4, 2⟩, 3, 5, 2, 1, 2, true⟩ ⟨[], []⟩ (by norm_num) (by norm_num) (by norm_num) (by norm_num) (by norm_num)
  (by norm_num) (by norm_num) (by norm_num) (by norm_num)

/-- C105: cones with a cover. -/
theorem C105_cone (d : ConeDesc) (m : M) (hx : 0 < d.radius.x) (hz : 0 < d.radius.y) (hh : 0 < d.height) (hB1 : 1 ≤ d.cov)
    (hH : max 3 d.segsX + 1 < 2 ^ 32) (hV : 2 * (max 1 d.segsY + 1) ≤ 2 ^ 32) (hB : 2 * d.cov ≤ 2 ^ 32) :
    ∃ m', genCone d m = .ok m' ∧ PicksSolid m m' := by
  obtain ⟨m', fs, e, hf, hw⟩ := C92_cone d m hB1 hH hV hB
  obtain ⟨m1, gs, e1, hf', hv⟩ := C95_cone d m hB1 hH hV hB
  obtain ⟨m2, e2, hc⟩ := C93_cone d m hx.le hz.le hh.le hH hV hB
  obtain ⟨m3, e3, hi⟩ := C91_cone d m hx hz hh hH hV hB 1 1 one_pos one_pos
  obtain ⟨m4, e4, hg, _⟩ := C44_cone d m hH (by omega) (by omega)
  obtain rfl := Res.ok.inj (e.symm.trans e1)
  obtain rfl := Res.ok.inj (e.symm.trans e2)
  obtain rfl := Res.ok.inj (e.symm.trans e3)
  obtain rfl := Res.ok.inj (e.symm.trans e4)
  refine ⟨_, e, picksSolid_of hf hw hf' ?_ hg hc (infront_flat hi)⟩
  rw [hv]
  have := fan_pos (le_max_left 3 d.segsX)
  positivity

example := C105_cone ⟨⟨4, 2⟩, 3, 5, 2, 1, true⟩ ⟨[], []⟩ (by norm_num) (by norm_num) (by norm_num) (by norm_num) (by norm_num)
  (by norm_num) (by norm_num)

theorem cos_ge {a : ℝ} {n : ℕ} (h0 : 0 ≤ a) (h1 : a ≤ Real.pi) (hn : 2 ≤ n) : 0 ≤ Real.cos (a / n) := by
  have h2 : (2 : ℝ) ≤ n := by exact_mod_cast hn
  refine Real.cos_nonneg_of_neg_pi_div_two_le_of_le (by have := Real.pi_pos; have : 0 ≤ a / n := by positivity
                                                        linarith) ?_
  rw [div_le_iff₀ (by linarith)]
  have := Real.pi_pos
  nlinarith

/-- C105: ellipsoids. -/
theorem C105_ellipsoid (d : EllipsoidDesc) (m : M) (hx : 0 < d.radius.x) (hy : 0 < d.radius.y) (hz : 0 < d.radius.z)
    (hb : (max 2 d.segsY + 1) * (max 3 d.segsX + 1) ≤ 2 ^ 32) : ∃ m', genEllipsoid d m = .ok m' ∧ PicksSolid m m' := by
  have h1 : 3 ≤ max 3 d.segsX := le_max_left _ _
  have h2 : 2 ≤ max 2 d.segsY := le_max_left _ _
  have hU : max 3 d.segsX + 1 < 2 ^ 32 := by have := Nat.mul_le_mul_right (max 3 d.segsX + 1) (show 3 ≤ max 2 d.segsY + 1 by omega); omega
  have hV : max 2 d.segsY + 1 < 2 ^ 32 := by have := Nat.mul_le_mul_left (max 2 d.segsY + 1) (show 4 ≤ max 3 d.segsX + 1 by omega); omega
  obtain ⟨m', fs, e, hf, hw⟩ := C92_ellipsoid d m hb
  obtain ⟨m1, gs, e1, hf', hv⟩ := C95_ellipsoid d m hb
  obtain ⟨m2, e2, hc⟩ := C93_ellipsoid d m hx.le hy.le hz.le hb
  obtain ⟨m3, e3, hi⟩ := C91_ellipsoid d m hx hy hz hb 1 1 one_pos one_pos
  obtain ⟨m4, e4, hg⟩ := C43_appends d m hU hV
  obtain rfl := Res.ok.inj (e.symm.trans e1)
  obtain rfl := Res.ok.inj (e.symm.trans e2)
  obtain rfl := Res.ok.inj (e.symm.trans e3)
  obtain rfl := Res.ok.inj (e.symm.trans e4)
  refine ⟨_, e, picksSolid_of hf hw hf' ?_ hg hc hi⟩
  rw [hv]
  have := fan_pos (le_max_left 3 d.segsX)
  have := cos_ge Real.pi_pos.le le_rfl h2
  positivity

example := C105_ellipsoid ⟨⟨4, 2, 3⟩, 5, 4, true⟩ ⟨[], []⟩ (by norm_num) (by norm_num) (by norm_num) (by norm_num)

/-- C105: capsules. -/
theorem C105_capsule (d : CapsuleDesc) (m : M) (hx : 0 < d.radius.x) (hy : 0 < d.radius.y) (hz : 0 < d.radius.z) (hh : 0 < d.height)
    (hV : 2 * (max 1 d.segsY + 1) ≤ 2 ^ 32) (hE : (max 2 d.ellipsoidSegs + 1) * (max 3 d.segsX + 1) ≤ 2 ^ 32) :
    ∃ m', genCapsule d m = .ok m' ∧ PicksSolid m m' := by
  have h1 : 3 ≤ max 3 d.segsX := le_max_left _ _
  have h2 : 2 ≤ max 2 d.ellipsoidSegs := le_max_left _ _
  have hU : max 3 d.segsX + 1 < 2 ^ 32 := by have := Nat.mul_le_mul_right (max 3 d.segsX + 1) (show 3 ≤ max 2 d.ellipsoidSegs + 1 by omega); omega
  have hE' : max 2 d.ellipsoidSegs + 1 < 2 ^ 32 := by have := Nat.mul_le_mul_left (max 2 d.ellipsoidSegs + 1) (show 4 ≤ max 3 d.segsX + 1 by omega); omega
  obtain ⟨m', fs, e, hf, hw⟩ := C92_capsule d m hV hE
  obtain ⟨m1, gs, e1, hf', hv⟩ := C95_capsule d m hV hE
  obtain ⟨m2, e2, hc⟩ := C93_capsule d m hx.le hy.le hz.le hh.le hV hE
  obtain ⟨m3, e3, hi⟩ := C91_capsule d m hx hy hz hh hV hE 1 1 one_pos one_pos
  obtain ⟨m4, e4, hg, _⟩ := C45_capsule d m hU (by omega) hE'
  obtain rfl := Res.ok.inj (e.symm.trans e1)
  obtain rfl := Res.ok.inj (e.symm.trans e2)
  obtain rfl := Res.ok.inj (e.symm.trans e3)
  obtain rfl := Res.ok.inj (e.symm.trans e4)
  refine ⟨_, e, picksSolid_of hf hw hf' ?_ hg hc hi⟩
  rw [hv]
  have := fan_pos (le_max_left 3 d.segsX)
  have := cos_ge (a := Real.pi / 2) (by have := Real.pi_pos; positivity) (by have := Real.pi_pos; linarith) h2
  positivity

example := C105_capsule ⟨⟨4, 2, 3⟩, 1, 5, 2, 3, true⟩ ⟨[], []⟩ (by norm_num) (by norm_num) (by norm_num) (by norm_num) (by norm_num)
  (by norm_num)

/-- C105: cuboids. -/
theorem C105_cuboid (sx sy : ℝ) (hsx : sx = 1 ∨ sx = -1) (hsy : sy = 1 ∨ sy = -1) (d : CuboidDesc) (m : M) (hx : 0 < d.size.x) (hy : 0 < d.size.y) (hz : 0 < d.size.z)
    (h1 : (max 1 d.segsY + 1) * (max 1 d.segsX + 1) ≤ 2 ^ 32) (h2 : (max 1 d.segsY + 1) * (max 1 d.segsZ + 1) ≤ 2 ^ 32)
    (h3 : (max 1 d.segsZ + 1) * (max 1 d.segsX + 1) ≤ 2 ^ 32) :
    ∃ m', genCuboid sx sy d m = .ok m' ∧ PicksSolid m m' := by
  have p1 : 1 ≤ max 1 d.segsX := le_max_left _ _
  have p2 : 1 ≤ max 1 d.segsY := le_max_left _ _
  have p3 : 1 ≤ max 1 d.segsZ := le_max_left _ _
  have q1 := Nat.mul_le_mul_right (max 1 d.segsX + 1) (show 2 ≤ max 1 d.segsY + 1 by omega)
  have q2 := Nat.mul_le_mul_left (max 1 d.segsY + 1) (show 2 ≤ max 1 d.segsX + 1 by omega)
  have q3 := Nat.mul_le_mul_left (max 1 d.segsZ + 1) (show 2 ≤ max 1 d.segsX + 1 by omega)
  obtain ⟨m', fs, e, hf, hw⟩ := C92_cuboid sx sy hsx hsy d m h1 h2 h3
  obtain ⟨m1, gs, e1, hf', hv⟩ := C95_cuboid sx sy hsx hsy d m h1 h2 h3
  obtain ⟨m2, e2, hc⟩ := C93_cuboid sx sy hsx hsy d m hx.le hy.le hz.le h1 h2 h3
  obtain ⟨m3, e3, hi⟩ := C91_cuboid sx sy d m hx hy hz h1 h2 h3
  obtain ⟨m4, e4, hg⟩ := C42_appends sx sy hsx hsy d m (by omega) (by omega) (by omega)
  obtain rfl := Res.ok.inj (e.symm.trans e1)
  obtain rfl := Res.ok.inj (e.symm.trans e2)
  obtain rfl := Res.ok.inj (e.symm.trans e3)
  obtain rfl := Res.ok.inj (e.symm.trans e4)
  refine ⟨_, e, picksSolid_of hf hw hf' ?_ hg hc (infront_flat hi)⟩
  rw [hv]
  positivity

example := C105_cuboid 1 1 (by norm_num) (by norm_num) ⟨⟨4, 1, 3⟩, 3, 2, 1, true⟩ ⟨[], []⟩ (by norm_num) (by norm_num) (by norm_num)
  (by norm_num) (by norm_num) (by norm_num)

theorem body_ball {fs : List Face} {s : Sphere.Sphere ℝ} (h : ∀ p ∈ corners fs, Sphere.Spec.OnSphere s p) {x : V3 ℝ} (hx : x ∈ body fs) : Sphere.Spec.excess s x ≤ 0 := by
  have hc : Convex ℝ {x | Sphere.Spec.excess s x ≤ 0} := by
    intro x hx y hy a b ha hb hab
    obtain rfl : a = 1 - b := by linarith
    have hx : Sphere.Spec.excess s x ≤ 0 := hx
    have hy : Sphere.Spec.excess s y ≤ 0 := hy
    have key : Sphere.Spec.excess s ((1 - b) • x + b • y) = (1 - b) * Sphere.Spec.excess s x + b * Sphere.Spec.excess s y
        - (1 - b) * b * ((x.x - y.x) ^ 2 + (x.y - y.y) ^ 2 + (x.z - y.z) ^ 2) := by
      simp only [Sphere.Spec.excess, V3.add_x, V3.add_y, V3.add_z, V3.smul_x, V3.smul_y, V3.smul_z]; ring
    show Sphere.Spec.excess s _ ≤ 0
    rw [key]
    have := mul_nonneg ha (neg_nonneg.2 hx)
    have := mul_nonneg hb (neg_nonneg.2 hy)
    have := mul_nonneg (mul_nonneg ha hb) (show 0 ≤ (x.x - y.x) ^ 2 + (x.y - y.y) ^ 2 + (x.z - y.z) ^ 2 by positivity)
    linarith
  exact convexHull_min (fun p hp => le_of_eq (h p hp)) hc hx

/-- C105: the mesh of a sphere is hit by rays from outside only if the query for the sphere hits, and not earlier. -/
theorem C105_sphere (d : EllipsoidDesc) (m : M) (s : Sphere.Sphere ℝ) (hs : s.origin = 0) (hr : d.radius = ⟨s.radius, s.radius, s.radius⟩)
    (hb : (max 2 d.segsY + 1) * (max 3 d.segsX + 1) ≤ 2 ^ 32) :
    ∃ m' fs, genEllipsoid d m = .ok m' ∧ NewFaces m m' fs ∧ ∀ (r : Ray ℝ) (p : V3 ℝ), r.direction.x ^ 2 + r.direction.y ^ 2 + r.direction.z ^ 2 = 1 →
      0 < Sphere.Spec.excess s r.origin → (∃ f ∈ fs, Picks f r p) →
      ∃ t t', 0 ≤ t ∧ t ≤ t' ∧ Sphere.intersection s r = some (at_ r t) ∧ p = at_ r t' := by
  have h1 : 3 ≤ max 3 d.segsX := le_max_left _ _
  have h2 : 2 ≤ max 2 d.segsY := le_max_left _ _
  have hU : max 3 d.segsX + 1 < 2 ^ 32 := by have := Nat.mul_le_mul_right (max 3 d.segsX + 1) (show 3 ≤ max 2 d.segsY + 1 by omega); omega
  have hV : max 2 d.segsY + 1 < 2 ^ 32 := by have := Nat.mul_le_mul_left (max 2 d.segsY + 1) (show 4 ≤ max 3 d.segsX + 1 by omega); omega
  obtain ⟨m', fs, e, hf, hw⟩ := C92_ellipsoid d m hb
  obtain ⟨m4, e4, hg⟩ := C43_appends d m hU hV
  obtain rfl := Res.ok.inj (e.symm.trans e4)
  refine ⟨m', fs, e, hf, ?_⟩
  have cor : ∀ p ∈ corners fs, Sphere.Spec.OnSphere s p := by
    rintro p ⟨f, hfm, hp⟩
    obtain ⟨vs, ev, _, hP⟩ := hg.verts
    obtain ⟨ts, et, _, hi⟩ := hg.tris
    obtain ⟨ts', et', hm⟩ := hf
    obtain rfl := List.append_cancel_left (et.symm.trans et')
    have : some f ∈ ts.map (face m') := by rw [hm]; exact List.mem_map_of_mem hfm
    obtain ⟨t, ht, e⟩ := List.mem_map.1 this
    have newv : ∀ i ∈ [t.a, t.b, t.c], ∀ v, m'.vertices[i]? = some v → Sphere.Spec.OnSphere s v.position := by
      intro i hi' v hv
      have h1 := (hi t ht i hi').1
      rw [ev, List.getElem?_append_right h1] at hv
      obtain ⟨⟨a, b, c, h, e⟩, _⟩ := hP v (List.mem_of_getElem? hv)
      rw [e, hr]
      simp only [Sphere.Spec.OnSphere, Sphere.Spec.excess, hs, V3.zero_x, V3.zero_y, V3.zero_z]
      linear_combination s.radius ^ 2 * h
    unfold face at e
    split at e
    · rename_i a b c ha hb hc
      rw [Option.some.injEq] at e
      subst e
      rcases hp with rfl | rfl | rfl
      · exact newv _ (by simp) _ ha
      · exact newv _ (by simp) _ hb
      · exact newv _ (by simp) _ hc
    · cases e
  rintro r p hu ho ⟨f, hfm, hp⟩
  obtain ⟨s', hs', rfl, hin, _⟩ := picks_spec hp
  have hle := body_ball cor (tri_body hfm hin)
  have hcont : ContinuousOn (fun t => Sphere.Spec.excess s (at_ r t)) (Set.Icc 0 s') := by
    have : (fun t => Sphere.Spec.excess s (at_ r t)) = fun t => (r.origin.x + t * r.direction.x - s.origin.x) ^ 2 + (r.origin.y + t * r.direction.y - s.origin.y) ^ 2
        + (r.origin.z + t * r.direction.z - s.origin.z) ^ 2 - s.radius ^ 2 := by
      funext t
      simp only [Sphere.Spec.excess, at_, V3.add_x, V3.add_y, V3.add_z, V3.smul_x, V3.smul_y, V3.smul_z]
    rw [this]
    fun_prop
  obtain ⟨t0, ⟨ht0, ht0'⟩, ht1⟩ := intermediate_value_Icc' hs'.le hcont ⟨hle, by simpa [at_] using ho.le⟩
  obtain ⟨q, hq⟩ := (Geom.Sphere.C28_success s r hu ho).2 ⟨t0, ht0, ht1⟩
  obtain ⟨t, ht, e, _, hmin⟩ := (Geom.Sphere.C28_first s r hu ho q).1 hq
  exact ⟨t, s', ht, (hmin t0 ht0 ht1).trans ht0', by rw [hq, e]; rfl, rfl⟩

/-- A tetrahedron. -/
def tetra : List Face :=
  [(⟨0, 0, 0⟩, ⟨0, 1, 0⟩, ⟨1, 0, 0⟩), (⟨0, 0, 0⟩, ⟨1, 0, 0⟩, ⟨0, 0, 1⟩), (⟨0, 0, 0⟩, ⟨0, 0, 1⟩, ⟨0, 1, 0⟩), (⟨1, 0, 0⟩, ⟨0, 1, 0⟩, ⟨0, 0, 1⟩)]

/-- It meets the hypotheses. -/
theorem tetra_ok : Watertight tetra ∧ ConvexFaces tetra ∧ Proper tetra ∧ volume tetra ≠ 0 := by
  refine ⟨watertight_of (by simp [tetra]) ?_, ?_, ?_, ?_⟩
  · intro w hw
    simp only [tetra, bsum_cons, bsum_nil]
    linarith [hw ⟨0, 0, 0⟩ ⟨1, 0, 0⟩, hw ⟨0, 0, 0⟩ ⟨0, 1, 0⟩, hw ⟨0, 0, 0⟩ ⟨0, 0, 1⟩, hw ⟨1, 0, 0⟩ ⟨0, 1, 0⟩, hw ⟨0, 1, 0⟩ ⟨0, 0, 1⟩, hw ⟨0, 0, 1⟩ ⟨1, 0, 0⟩]
  · rintro f hf p ⟨g, hg, hp⟩
    simp only [tetra, List.mem_cons, List.not_mem_nil, or_false] at hf hg
    rcases hf with rfl | rfl | rfl | rfl <;> rcases hg with rfl | rfl | rfl | rfl <;> rcases hp with rfl | rfl | rfl <;> norm_num [facet, V3.dot]
  · intro f hf
    simp only [tetra, List.mem_cons, List.not_mem_nil, or_false] at hf
    rcases hf with rfl | rfl | rfl | rfl <;> norm_num [facet, V3.ext_iff]
  · norm_num [volume, spat, tetra, V3.dot]

example := C105_pick tetra tetra_ok.1 tetra_ok.2.1 tetra_ok.2.2.1 tetra_ok.2.2.2 ⟨⟨1, 1, 1⟩, ⟨-1, -1, -1⟩⟩ ⟨1 / 3, 1 / 3, 1 / 3⟩

example : ∃ m', genEllipsoid ⟨⟨3, 1, 2⟩, 5, 4, true⟩ ⟨[], []⟩ = .ok m' ∧ PicksSolid ⟨[], []⟩ m' :=
  C105_ellipsoid ⟨⟨3, 1, 2⟩, 5, 4, true⟩ _ (by norm_num) (by norm_num) (by norm_num) (by norm_num)

end Geom.Gen
