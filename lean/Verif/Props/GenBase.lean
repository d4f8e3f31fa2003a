import Verif.Model.Gen
import Verif.Spec.Gen

/-
  What the loops of the mesh generators append.
-/
set_option autoImplicit false
set_option linter.unusedSectionVars false

namespace Geom.Gen
open TMesh (Mesh Vertex Ix addVertex addTriangle)
open Spec

/-- A mesh with more vertices and triangles. -/
def ext (m : M) (vs : List (Vertex ℝ)) (ts : List Ix) : M := ⟨m.vertices ++ vs, m.triangles ++ ts⟩

theorem ext_ext (m : M) (a c : List (Vertex ℝ)) (b d : List Ix) : ext (ext m a b) c d = ext m (a ++ c) (b ++ d) := by
  simp [ext]

theorem ext_nil (m : M) : ext m [] [] = m := by simp [ext]

theorem add_eq (m : M) (p n : V3 ℝ) (a b : ℝ) : add m p n a b = ext m [⟨p, n, ⟨a, b⟩⟩] [] := by
  simp [add, addVertex, ext]

theorem tri_eq (m : M) (a b c : ℕ) : tri m a b c = ext m [] [⟨a, b, c⟩] := by
  simp [tri, addTriangle, ext]

/-- The triangles of a quad. -/
def quadIx (alt : Bool) (u v a b c d : ℕ) : List Ix :=
  if alt = true ∧ (u + v) % 2 = 1 then [⟨a, b, d⟩, ⟨b, c, d⟩] else [⟨a, b, c⟩, ⟨a, c, d⟩]

theorem addQuad_eq (m : M) (alt : Bool) (u v i0 i1 i2 i3 o : ℕ) :
    addQuad m alt u v i0 i1 i2 i3 o = ext m [] (quadIx alt u v (o + i0) (o + i1) (o + i2) (o + i3)) := by
  have h : (!alt || decide (u % 2 = v % 2)) = !decide (alt = true ∧ (u + v) % 2 = 1) := by
    cases alt
    · simp
    · by_cases h : u % 2 = v % 2
      · have : ¬ (u + v) % 2 = 1 := by omega
        simp [h, this]
      · have : (u + v) % 2 = 1 := by omega
        simp [h, this]
  unfold addQuad quadIx
  rw [h]
  by_cases h' : alt = true ∧ (u + v) % 2 = 1
  · simp [h', tri_eq, ext_ext]
  · simp [h', tri_eq, ext_ext]

theorem quadIx_length (alt : Bool) (u v a b c d : ℕ) : (quadIx alt u v a b c d).length = 2 := by
  unfold quadIx; split_ifs <;> rfl

theorem quadIx_mem {alt : Bool} {u v a b c d : ℕ} {t : Ix} (ht : t ∈ quadIx alt u v a b c d) :
    ∀ i ∈ [t.a, t.b, t.c], i = a ∨ i = b ∨ i = c ∨ i = d := by
  unfold quadIx at ht
  split_ifs at ht <;> simp only [List.mem_cons, List.not_mem_nil, or_false] at ht <;> rcases ht with rfl | rfl <;> simp

/-! Tables. -/

/-- The concatenation of `f lo, ..., f (lo + n - 1)`. -/
def tab {α : Type} (lo n : ℕ) (f : ℕ → List α) : List α := (List.range n).flatMap fun i => f (lo + i)

variable {α : Type}

@[simp] theorem tab_zero (lo : ℕ) (f : ℕ → List α) : tab lo 0 f = [] := rfl

theorem tab_succ (lo n : ℕ) (f : ℕ → List α) : tab lo (n + 1) f = tab lo n f ++ f (lo + n) := by
  simp [tab, List.range_succ]

theorem tab_nil (lo n : ℕ) : tab lo n (fun _ => ([] : List α)) = [] := by
  induction n with
  | zero => rfl
  | succ n ih => rw [tab_succ, ih]; rfl

theorem tab_zero_eq (n : ℕ) (f : ℕ → List α) : tab 0 n f = (List.range n).flatMap f := by simp [tab]

theorem tab_congr {lo n : ℕ} {f g : ℕ → List α} (h : ∀ i, i < n → f (lo + i) = g (lo + i)) : tab lo n f = tab lo n g := by
  induction n with
  | zero => rfl
  | succ n ih => rw [tab_succ, tab_succ, ih (fun i hi => h i (by omega)), h n (by omega)]

theorem mem_tab {lo n : ℕ} {f : ℕ → List α} {a : α} : a ∈ tab lo n f ↔ ∃ i, i < n ∧ a ∈ f (lo + i) := by
  simp [tab]

theorem tab_length (lo n k : ℕ) (f : ℕ → List α) (h : ∀ i, i < n → (f (lo + i)).length = k) : (tab lo n f).length = n * k := by
  induction n with
  | zero => simp
  | succ n ih =>
    rw [tab_succ, List.length_append, ih (fun i hi => h i (by omega)), h n (by omega)]
    ring

theorem tab_get (lo n k : ℕ) (f : ℕ → List α) (h : ∀ i, i < n → (f (lo + i)).length = k) (i j : ℕ) (hi : i < n) (hj : j < k) :
    (tab lo n f)[i * k + j]? = (f (lo + i))[j]? := by
  induction n with
  | zero => omega
  | succ n ih =>
    have hl := tab_length lo n k f (fun i hi => h i (by omega))
    rw [tab_succ]
    by_cases hin : i < n
    · have : i * k + j < n * k := by
        have := Nat.mul_le_mul_right k (show i + 1 ≤ n by omega)
        rw [Nat.add_mul] at this; omega
      rw [List.getElem?_append_left (by omega)]
      exact ih (fun i hi => h i (by omega)) hin
    · obtain rfl : i = n := by omega
      rw [List.getElem?_append_right (by omega), hl, Nat.add_sub_cancel_left]

theorem tab_map {β : Type} (lo n : ℕ) (f : ℕ → List α) (g : α → β) : (tab lo n f).map g = tab lo n (fun i => (f i).map g) := by
  simp [tab, List.map_flatMap]

/-! Loops that append. -/

theorem forLe_ext (lo hi : ℕ) (body : ℕ → M → Res M) (vs : ℕ → List (Vertex ℝ)) (ts : ℕ → List Ix) (m : M)
    (h1 : lo ≤ hi + 1) (h2 : hi + 1 < 2 ^ 32) (hb : ∀ i m, lo ≤ i → i ≤ hi → body i m = .ok (ext m (vs i) (ts i))) :
    forLe lo hi body m = .ok (ext m (tab lo (hi + 1 - lo) vs) (tab lo (hi + 1 - lo) ts)) := by
  have := forLe_ok lo hi body (fun i => ext m (tab lo (i - lo) vs) (tab lo (i - lo) ts)) h1 h2 (fun i h h' => by
    rw [hb i _ h h', ext_ext, show i + 1 - lo = (i - lo) + 1 by omega, tab_succ, tab_succ, show lo + (i - lo) = i by omega])
  simpa [ext_nil] using this

theorem forLt_ext (lo hi : ℕ) (body : ℕ → M → Res M) (vs : ℕ → List (Vertex ℝ)) (ts : ℕ → List Ix) (m : M)
    (h1 : lo ≤ hi) (h2 : hi < 2 ^ 32) (hb : ∀ i m, lo ≤ i → i < hi → body i m = .ok (ext m (vs i) (ts i))) :
    forLt lo hi body m = .ok (ext m (tab lo (hi - lo) vs) (tab lo (hi - lo) ts)) := by
  have := forLt_ok lo hi body (fun i => ext m (tab lo (i - lo) vs) (tab lo (i - lo) ts)) h1 h2 (fun i h h' => by
    rw [hb i _ h h', ext_ext, show i + 1 - lo = (i - lo) + 1 by omega, tab_succ, tab_succ, show lo + (i - lo) = i by omega])
  simpa [ext_nil] using this

theorem forLe_acc {A : Type} (lo hi : ℕ) (body : ℕ → M × A → Res (M × A)) (acc : ℕ → A) (vs : ℕ → List (Vertex ℝ))
    (ts : ℕ → List Ix) (m : M) (h1 : lo ≤ hi + 1) (h2 : hi + 1 < 2 ^ 32)
    (hb : ∀ i m, lo ≤ i → i ≤ hi → body i (m, acc i) = .ok (ext m (vs i) (ts i), acc (i + 1))) :
    forLe lo hi body (m, acc lo) = .ok (ext m (tab lo (hi + 1 - lo) vs) (tab lo (hi + 1 - lo) ts), acc (hi + 1)) := by
  have := forLe_ok lo hi body (fun i => (ext m (tab lo (i - lo) vs) (tab lo (i - lo) ts), acc i)) h1 h2 (fun i h h' => by
    rw [hb i _ h h', ext_ext, show i + 1 - lo = (i - lo) + 1 by omega, tab_succ, tab_succ, show lo + (i - lo) = i by omega])
  simpa [ext_nil] using this

theorem forLt_acc {A : Type} (lo hi : ℕ) (body : ℕ → M × A → Res (M × A)) (acc : ℕ → A) (vs : ℕ → List (Vertex ℝ))
    (ts : ℕ → List Ix) (m : M) (h1 : lo ≤ hi) (h2 : hi < 2 ^ 32)
    (hb : ∀ i m, lo ≤ i → i < hi → body i (m, acc i) = .ok (ext m (vs i) (ts i), acc (i + 1))) :
    forLt lo hi body (m, acc lo) = .ok (ext m (tab lo (hi - lo) vs) (tab lo (hi - lo) ts), acc hi) := by
  have := forLt_ok lo hi body (fun i => (ext m (tab lo (i - lo) vs) (tab lo (i - lo) ts), acc i)) h1 h2 (fun i h h' => by
    rw [hb i _ h h', ext_ext, show i + 1 - lo = (i - lo) + 1 by omega, tab_succ, tab_succ, show lo + (i - lo) = i by omega])
  simpa [ext_nil] using this

/-! Grids of vertices. -/

/-- `R` rows with `C` vertices each. -/
def gridV (R C : ℕ) (f : ℕ → ℕ → Vertex ℝ) : List (Vertex ℝ) := tab 0 R fun r => tab 0 C fun c => [f r c]

theorem row_length (C : ℕ) (g : ℕ → Vertex ℝ) (lo : ℕ) : (tab lo C fun c => [g c]).length = C := by
  rw [tab_length lo C 1 _ (fun _ _ => rfl), mul_one]

theorem row_get (C : ℕ) (g : ℕ → Vertex ℝ) (lo c : ℕ) (hc : c < C) : (tab lo C fun c => [g c])[c]? = some (g (lo + c)) := by
  have := tab_get lo C 1 (fun c => [g c]) (fun _ _ => rfl) c 0 hc (by omega)
  simpa using this

theorem gridV_length (R C : ℕ) (f : ℕ → ℕ → Vertex ℝ) : (gridV R C f).length = R * C :=
  tab_length 0 R C _ (fun _ _ => row_length C _ 0)

theorem gridV_get (R C : ℕ) (f : ℕ → ℕ → Vertex ℝ) (r c : ℕ) (hr : r < R) (hc : c < C) :
    (gridV R C f)[r * C + c]? = some (f r c) := by
  unfold gridV
  rw [tab_get 0 R C _ (fun _ _ => row_length C _ 0) r c hr hc, row_get C _ 0 c hc]
  simp

theorem gridV_mem {R C : ℕ} {f : ℕ → ℕ → Vertex ℝ} {x : Vertex ℝ} :
    x ∈ gridV R C f ↔ ∃ r c, r < R ∧ c < C ∧ x = f r c := by
  simp only [gridV, mem_tab, Nat.zero_add, List.mem_cons, List.not_mem_nil, or_false]
  constructor
  · rintro ⟨r, hr, c, hc, h⟩; exact ⟨r, c, hr, hc, h⟩
  · rintro ⟨r, c, hr, hc, h⟩; exact ⟨r, hr, c, hc, h⟩

theorem gridV_congr {R C : ℕ} {f g : ℕ → ℕ → Vertex ℝ} (h : ∀ r c, r < R → c < C → f r c = g r c) : gridV R C f = gridV R C g := by
  apply tab_congr
  intro r hr
  apply tab_congr
  intro c hc
  simp only [Nat.zero_add]
  rw [h r c hr hc]

/-- The grid bound: an index of a cell corner is an index of the grid. -/
theorem grid_lt {R C r c : ℕ} (hr : r < R) (hc : c < C) : r * C + c < R * C := by
  have := Nat.mul_le_mul_right C (show r + 1 ≤ R by omega)
  rw [Nat.add_mul] at this
  omega

/-! Faces. -/

/-- `part` is stored from `off` on. -/
def Stored (m : M) (off : ℕ) (part : List (Vertex ℝ)) : Prop := ∀ k, k < part.length → m.vertices[off + k]? = part[k]?

theorem stored_append (pre part post : List (Vertex ℝ)) (ts : List Ix) : Stored ⟨pre ++ (part ++ post), ts⟩ pre.length part := by
  intro k hk
  rw [List.getElem?_append_right (by omega), Nat.add_sub_cancel_left, List.getElem?_append_left hk]

theorem face_some {m : M} {a b c : ℕ} {x y z : Vertex ℝ} (ha : m.vertices[a]? = some x) (hb : m.vertices[b]? = some y)
    (hc : m.vertices[c]? = some z) : face m ⟨a, b, c⟩ = some (x.position, y.position, z.position) := by
  simp [face, ha, hb, hc]

theorem quad_faces {m : M} (alt : Bool) (u v : ℕ) {a b c d : ℕ} {x y z w : Vertex ℝ} (ha : m.vertices[a]? = some x)
    (hb : m.vertices[b]? = some y) (hc : m.vertices[c]? = some z) (hd : m.vertices[d]? = some w) :
    (quadIx alt u v a b c d).map (face m) = (quad alt u v x.position y.position z.position w.position).map some := by
  unfold quadIx quad
  split_ifs <;> simp [face_some ha hb hd, face_some hb hc hd, face_some ha hb hc, face_some ha hc hd]

theorem grid_eq {β : Type} (m n : ℕ) (f : ℕ → ℕ → List β) : grid m n f = tab 0 m fun i => tab 0 n fun j => f i j := by
  simp [grid, tab]

/-- The triangles of a grid of cells. -/
def gridT (R C : ℕ) (q : ℕ → ℕ → List Ix) : List Ix := tab 0 R fun r => tab 0 C fun c => q r c

theorem gridT_length (R C k : ℕ) (q : ℕ → ℕ → List Ix) (h : ∀ r c, (q r c).length = k) : (gridT R C q).length = R * (C * k) :=
  tab_length 0 R _ _ (fun _ _ => tab_length 0 C k _ (fun _ _ => h _ _))

theorem gridT_mem {R C : ℕ} {q : ℕ → ℕ → List Ix} {t : Ix} : t ∈ gridT R C q ↔ ∃ r c, r < R ∧ c < C ∧ t ∈ q r c := by
  simp only [gridT, mem_tab, Nat.zero_add]
  constructor
  · rintro ⟨r, hr, c, hc, h⟩; exact ⟨r, c, hr, hc, h⟩
  · rintro ⟨r, c, hr, hc, h⟩; exact ⟨r, hr, c, hc, h⟩

theorem gridT_faces {m : M} {R C : ℕ} {q : ℕ → ℕ → List Ix} {f : ℕ → ℕ → List Face}
    (h : ∀ r c, r < R → c < C → (q r c).map (face m) = (f r c).map some) : (gridT R C q).map (face m) = (grid R C f).map some := by
  rw [grid_eq, gridT, tab_map, tab_map]
  apply tab_congr
  intro r hr
  rw [tab_map, tab_map]
  apply tab_congr
  intro c hc
  simp only [Nat.zero_add]
  exact h r c hr hc

/-- Assembling the results. -/
theorem grows_ext (m : M) (vs : List (Vertex ℝ)) (ts : List Ix) (nv nt : ℕ) (P : Vertex ℝ → Prop) (h1 : vs.length = nv)
    (h2 : ts.length = nt) (h3 : ∀ v ∈ vs, P v)
    (h4 : ∀ t ∈ ts, ∀ i ∈ [t.a, t.b, t.c], m.vertices.length ≤ i ∧ i < m.vertices.length + nv) :
    Grows m (ext m vs ts) nv nt P := ⟨⟨vs, rfl, h1, h3⟩, ⟨ts, rfl, h2, h4⟩⟩

end Geom.Gen
