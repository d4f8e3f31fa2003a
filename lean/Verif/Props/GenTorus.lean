import Verif.Props.GenGrid
import Mathlib.Data.ZMod.Basic

/-
  C46: the torus is a closed, oriented surface.
-/
set_option autoImplicit false
set_option linter.unusedSectionVars false
set_option linter.unusedSimpArgs false

namespace Geom.Gen
open TMesh (Mesh Vertex Ix addVertex addTriangle)
open Spec

section Quotient

variable {A B : Type} [AddCommGroup A] [AddCommGroup B] [DecidableEq A] [DecidableEq B]

/-- The edges of a cell of a torus grid in the order of the generator; `o` and `p` are the units of the two directions. -/
def cellEdges (o : A) (p : B) (diag : Bool) (v : A) (u : B) : List ((A × B) × (A × B)) :=
  let p0 := (v, u + p)
  let p1 := (v, u)
  let p2 := (v + o, u)
  let p3 := (v + o, u + p)
  if diag then [(p0, p1), (p1, p3), (p3, p0), (p1, p2), (p2, p3), (p3, p1)] else [(p0, p1), (p1, p2), (p2, p0), (p0, p2), (p2, p3), (p3, p0)]

/-- The cell of an edge, from its difference. -/
def cellOf (o : A) (p : B) (e : (A × B) × (A × B)) : A × B :=
  let dv := e.2.1 - e.1.1
  let du := e.2.2 - e.1.2
  if dv = 0 ∧ du = -p then e.2
  else if dv = o ∧ du = 0 then e.1
  else if dv = 0 ∧ du = p then (e.1.1 - o, e.1.2)
  else if dv = -o ∧ du = 0 then (e.2.1, e.2.2 - p)
  else if dv = -o ∧ du = p then (e.2.1, e.1.2)
  else if dv = o ∧ du = -p then (e.1.1, e.2.2)
  else if dv = o ∧ du = p then e.1
  else e.2

theorem cellOf_mem (o : A) (p : B) (ho : o ≠ 0) (hp : p ≠ 0) (ho2 : o ≠ -o) (hp2 : p ≠ -p) (diag : Bool) (v : A) (u : B)
    (e : (A × B) × (A × B)) (he : e ∈ cellEdges o p diag v u) : cellOf o p e = (v, u) := by
  have ho' : ¬ (0 : A) = o := fun h => ho h.symm
  have hp' : ¬ (0 : B) = p := fun h => hp h.symm
  have ho2' : ¬ -o = o := fun h => ho2 h.symm
  have hp2' : ¬ -p = p := fun h => hp2 h.symm
  have a1 : u - (u + p) = -p := by abel
  have a2 : u + p - u = p := by abel
  have a3 : v + o - v = o := by abel
  have a4 : v - (v + o) = -o := by abel
  have a5 : v + o - o = v := by abel
  have a6 : u + p - p = u := by abel
  cases diag <;> simp only [cellEdges, if_true, Bool.false_eq_true, if_false, List.mem_cons, List.not_mem_nil, or_false] at he <;>
    rcases he with rfl | rfl | rfl | rfl | rfl | rfl <;>
    simp [cellOf, ho, hp, ho', hp', ho2, hp2, ho2', hp2', a1, a2, a3, a4, a5, a6]

theorem cellEdges_nodup (o : A) (p : B) (ho : o ≠ 0) (hp : p ≠ 0) (diag : Bool) (v : A) (u : B) : (cellEdges o p diag v u).Nodup := by
  have ho' : ¬ (0 : A) = o := fun h => ho h.symm
  have hp' : ¬ (0 : B) = p := fun h => hp h.symm
  cases diag <;> simp [cellEdges, ho, hp, ho', hp']

theorem cellEdges_bound (o : A) (p : B) (diag : Bool) (v : A) (u : B) (e : (A × B) × (A × B)) :
    e ∈ cellEdges o p diag v u ↔ (e = ((v, u + p), (v, u)) ∨ e = ((v, u), (v + o, u)) ∨ e = ((v + o, u), (v + o, u + p)) ∨ e = ((v + o, u + p), (v, u + p))) ∨
      (if diag then e = ((v, u), (v + o, u + p)) ∨ e = ((v + o, u + p), (v, u)) else e = ((v, u + p), (v + o, u)) ∨ e = ((v + o, u), (v, u + p))) := by
  cases diag <;> simp only [cellEdges, if_true, Bool.false_eq_true, if_false, List.mem_cons, List.not_mem_nil, or_false] <;> tauto

/-- The edges of all cells, where each cell occurs once. -/
theorem closed_cells (o : A) (p : B) (ho : o ≠ 0) (hp : p ≠ 0) (ho2 : o ≠ -o) (hp2 : p ≠ -p) (cells : List (A × B)) (diag : A × B → Bool)
    (hn : cells.Nodup) (hall : ∀ c, c ∈ cells) : ClosedOriented (cells.flatMap fun c => cellEdges o p (diag c) c.1 c.2) := by
  constructor
  · rw [List.nodup_flatMap]
    refine ⟨fun c _ => cellEdges_nodup o p ho hp _ _ _, ?_⟩
    refine hn.imp ?_
    intro c c' hne e he he'
    have h1 := cellOf_mem o p ho hp ho2 hp2 _ _ _ e he
    have h2 := cellOf_mem o p ho hp ho2 hp2 _ _ _ e he'
    exact hne (h1.symm.trans h2)
  · intro e he
    rw [List.mem_flatMap] at he ⊢
    obtain ⟨⟨v, u⟩, _, he⟩ := he
    rw [cellEdges_bound] at he
    rcases he with (rfl | rfl | rfl | rfl) | he
    · exact ⟨(v - o, u), hall _, by rw [cellEdges_bound]; left; right; right; left; simp⟩
    · exact ⟨(v, u - p), hall _, by rw [cellEdges_bound]; left; right; right; right; simp⟩
    · exact ⟨(v + o, u), hall _, by rw [cellEdges_bound]; left; left; simp⟩
    · exact ⟨(v, u + p), hall _, by rw [cellEdges_bound]; left; right; left; simp⟩
    · refine ⟨(v, u), hall _, ?_⟩
      rw [cellEdges_bound]
      right
      split_ifs at he ⊢
      · rcases he with rfl | rfl
        · exact .inr rfl
        · exact .inl rfl
      · rcases he with rfl | rfl
        · exact .inr rfl
        · exact .inl rfl

end Quotient

/-- The place of the vertex with the index `i` (counted from the first new one) in the grid of `V` by `U` cells of a torus, in
which the first and the last row and column are the same. -/
def torusPlace (U V i : ℕ) : ZMod V × ZMod U := (((i / (U + 1) : ℕ) : ZMod V), ((i % (U + 1) : ℕ) : ZMod U))

theorem torusPlace_cell (U V v u : ℕ) (h : u ≤ U) : torusPlace U V (v * (U + 1) + u) = ((v : ZMod V), (u : ZMod U)) := by
  have h1 : (v * (U + 1) + u) / (U + 1) = v := by
    rw [Nat.mul_comm, Nat.mul_add_div (by omega), Nat.div_eq_of_lt (by omega), Nat.add_zero]
  have h2 : (v * (U + 1) + u) % (U + 1) = u := by
    rw [Nat.mul_comm, Nat.mul_add_mod, Nat.mod_eq_of_lt (by omega)]
  rw [torusPlace, h1, h2]

theorem cells_nodup (U V : ℕ) (hU : 0 < U) (hV : 0 < V) :
    let cells := (List.range V).flatMap fun v => (List.range U).map fun u => (((v : ℕ) : ZMod V), ((u : ℕ) : ZMod U))
    cells.Nodup ∧ ∀ c, c ∈ cells := by
  have : NeZero U := ⟨hU.ne'⟩
  have : NeZero V := ⟨hV.ne'⟩
  have inj : ∀ n : ℕ, ∀ a b : ℕ, a < n → b < n → ((a : ℕ) : ZMod n) = b → a = b := by
    intro n a b ha hb h
    rw [ZMod.natCast_eq_natCast_iff'] at h
    rwa [Nat.mod_eq_of_lt ha, Nat.mod_eq_of_lt hb] at h
  intro cells
  constructor
  · rw [List.nodup_flatMap]
    constructor
    · intro v _
      refine List.Nodup.map_on ?_ List.nodup_range
      intro a ha b hb h
      exact inj U a b (List.mem_range.1 ha) (List.mem_range.1 hb) (congrArg Prod.snd h)
    · refine List.Pairwise.imp_of_mem ?_ (List.nodup_range (n := V))
      intro a b ha hb hne c hc hc'
      rw [List.mem_map] at hc hc'
      obtain ⟨_, _, rfl⟩ := hc
      obtain ⟨_, _, h⟩ := hc'
      exact hne (inj V a b (List.mem_range.1 ha) (List.mem_range.1 hb) (congrArg Prod.fst h).symm)
  · rintro ⟨a, b⟩
    rw [List.mem_flatMap]
    refine ⟨a.val, List.mem_range.2 (ZMod.val_lt a), List.mem_map.2 ⟨b.val, List.mem_range.2 (ZMod.val_lt b), ?_⟩⟩
    simp

theorem one_ne (n : ℕ) (h : 3 ≤ n) : (1 : ZMod n) ≠ 0 ∧ (1 : ZMod n) ≠ -1 := by
  constructor
  · intro e
    have : ((1 : ℕ) : ZMod n) = ((0 : ℕ) : ZMod n) := by simpa using e
    rw [ZMod.natCast_eq_natCast_iff', Nat.mod_eq_of_lt (by omega), Nat.zero_mod] at this
    omega
  · intro e
    have : ((2 : ℕ) : ZMod n) = ((0 : ℕ) : ZMod n) := by
      have : (1 : ZMod n) + 1 = 0 := by nth_rewrite 1 [e]; simp
      push_cast
      rw [← this]; norm_num
    rw [ZMod.natCast_eq_natCast_iff', Nat.mod_eq_of_lt (by omega), Nat.zero_mod] at this
    omega

theorem trig_mod (n a b : ℕ) (hn : 0 < n) (h : ((a : ℕ) : ZMod n) = (b : ZMod n)) :
    Real.sin (2 * Real.pi * a / n) = Real.sin (2 * Real.pi * b / n) ∧ Real.cos (2 * Real.pi * a / n) = Real.cos (2 * Real.pi * b / n) := by
  rw [ZMod.natCast_eq_natCast_iff'] at h
  have key : ∀ c : ℕ, Real.sin (2 * Real.pi * c / n) = Real.sin (2 * Real.pi * (c % n : ℕ) / n) ∧
      Real.cos (2 * Real.pi * c / n) = Real.cos (2 * Real.pi * (c % n : ℕ) / n) := by
    intro c
    have hn' : (n : ℝ) ≠ 0 := by positivity
    have e : 2 * Real.pi * (c : ℝ) / n = 2 * Real.pi * (c % n : ℕ) / n + (c / n : ℕ) * (2 * Real.pi) := by
      have : (c : ℝ) = n * (c / n : ℕ) + (c % n : ℕ) := by exact_mod_cast (Nat.div_add_mod c n).symm
      nth_rewrite 1 [this]
      field_simp
      ring
    rw [e, Real.sin_add_nat_mul_two_pi, Real.cos_add_nat_mul_two_pi]
    exact ⟨rfl, rfl⟩
  rw [(key a).1, (key a).2, (key b).1, (key b).2, h]
  exact ⟨rfl, rfl⟩

/-- C46: the new vertices at the same place coincide, and after their identification the new triangles form a closed, oriented
surface: each directed edge occurs once, and so does the opposite one. -/
theorem C46_closed (d : TorusDesc) (m : M) (hb : (max 3 d.segsY + 1) * (max 3 d.segsX + 1) ≤ 2 ^ 32) :
    let U := max 3 d.segsX
    let V := max 3 d.segsY
    let off := m.vertices.length
    ∃ m' vs ts, genTorus d m = .ok m' ∧ m'.vertices = m.vertices ++ vs ∧ m'.triangles = m.triangles ++ ts ∧
      (∀ i j x y, vs[i]? = some x → vs[j]? = some y → torusPlace U V i = torusPlace U V j → x.position = y.position) ∧
      ClosedOriented ((ts.flatMap dirEdges).map fun e => (torusPlace U V (e.1 - off), torusPlace U V (e.2 - off))) := by
  intro U V off
  have h1 : 3 ≤ U := le_max_left _ _
  have h2 : 3 ≤ V := le_max_left _ _
  have hb' : (V + 1) * (U + 1) ≤ 2 ^ 32 := hb
  have hU : U + 1 < 2 ^ 32 := by have := Nat.mul_le_mul_right (U + 1) (show 3 ≤ V + 1 by omega); omega
  have hV : V + 1 < 2 ^ 32 := by have := Nat.mul_le_mul_left (V + 1) (show 4 ≤ U + 1 by omega); omega
  refine ⟨ext m (gridV (V + 1) (U + 1) (torV d.ringRadius d.tubeRadius U V)) (gridTrisIx true d.alternateGrid U V off), _, _, ?_, rfl, rfl, ?_, ?_⟩
  · simp only [genTorus]
    rw [torusVerts_ok _ _ _ _ _ hU hV, Res.bind_ok, gridTris_ok _ _ _ _ _ _ (by omega) (by omega), ext_ext, List.append_nil, List.nil_append]
  · intro i j x y hx hy hp
    have get : ∀ i x, (gridV (V + 1) (U + 1) (torV d.ringRadius d.tubeRadius U V))[i]? = some x →
        x = torV d.ringRadius d.tubeRadius U V (i / (U + 1)) (i % (U + 1)) := by
      intro i x h
      have hl := (List.getElem?_eq_some_iff.1 h).1
      rw [gridV_length] at hl
      have e : i = i / (U + 1) * (U + 1) + i % (U + 1) := by rw [Nat.mul_comm]; exact (Nat.div_add_mod i (U + 1)).symm
      rw [e, gridV_get _ _ _ _ _ (Nat.div_lt_of_lt_mul (by rwa [Nat.mul_comm] at hl)) (Nat.mod_lt _ (by omega))] at h
      injection h with h
      exact h.symm
    rw [get i x hx, get j y hy]
    simp only [torusPlace, Prod.mk.injEq] at hp
    have t1 := trig_mod V _ _ (by omega) hp.1
    have t2 := trig_mod U _ _ (by omega) hp.2
    simp only [torV, torusPoint, t1.1, t1.2, t2.1, t2.2]
  · obtain ⟨hn, hall⟩ := cells_nodup U V (by omega) (by omega)
    have key := closed_cells (1 : ZMod V) (1 : ZMod U) (one_ne V h2).1 (one_ne U h1).1 (one_ne V h2).2 (one_ne U h1).2 _
      (fun c => decide (d.alternateGrid = true ∧ (c.2.val + c.1.val) % 2 = 1)) hn hall
    convert key using 1
    rw [gridTrisIx, gridT]
    simp only [tab, Nat.zero_add, List.flatMap_map, List.flatMap_assoc, List.map_flatMap]
    rw [List.flatMap_congr]
    intro v hv
    rw [List.flatMap_congr]
    intro u hu
    rw [List.mem_range] at hv hu
    have w : ∀ a b : ℕ, a ≤ V → b ≤ U → torusPlace U V (w32 (a * (U + 1) + b)) = ((a : ZMod V), (b : ZMod U)) := by
      intro a b ha hb
      rw [w32_of_lt ((grid_lt (by omega) (by omega)).trans_le hb'), torusPlace_cell U V a b hb]
    have c1 := w v u (by omega) (by omega)
    have c2 := w v (u + 1) (by omega) (by omega)
    have c3 := w (v + 1) (u + 1) (by omega) (by omega)
    have c4 := w (v + 1) u (by omega) (by omega)
    have hv' : ((v : ℕ) : ZMod V).val = v := ZMod.val_natCast_of_lt hv
    have hu' : ((u : ℕ) : ZMod U).val = u := ZMod.val_natCast_of_lt hu
    rw [hv', hu']
    unfold cellIx quadIx cellEdges
    rw [if_pos rfl]
    by_cases hd : d.alternateGrid = true ∧ (u + v) % 2 = 1
    · rw [if_pos hd, decide_eq_true hd, if_pos rfl]
      simp [dirEdges, Nat.add_sub_cancel_left, c1, c2, c3, c4]
    · rw [if_neg hd, decide_eq_false hd, if_neg (by simp)]
      simp [dirEdges, Nat.add_sub_cancel_left, c1, c2, c3, c4]

example := C46_closed ⟨⟨4, 2⟩, ⟨2, 3, 1⟩, 5, 4, true⟩ ⟨[], []⟩ (by norm_num)

end Geom.Gen
