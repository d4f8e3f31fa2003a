import Verif.Spec.MeshMove
import Mathlib.Logic.Equiv.Basic

/-
  C128: moves of meshes.
-/
set_option autoImplicit false
set_option linter.unusedSectionVars false

namespace Geom.TMesh.Props
open Spec

variable {K : Type}

/-- C128: in each library, a move gives the target the former mesh of the source and changes no third mesh; a construction leaves an empty mesh. -/
theorem C128_move_partial (lib : Lib) (i j : ℕ) (s : Store K) :
    (i ≠ j → moveAssign lib i j s i = s j ∧ ∀ k, k ≠ i → k ≠ j → moveAssign lib i j s k = s k) ∧
    (construct j s).1 = s j ∧ (construct j s).2 j = Mesh.empty ∧ ∀ k, k ≠ j → (construct j s).2 k = s k := by
  refine ⟨fun h => ⟨?_, fun k h1 h2 => ?_⟩, rfl, ?_, fun k h => ?_⟩
  · simp [moveAssign, moveVertices, moveTriangles, h, Ne.symm h]
  · simp [moveAssign, moveVertices, moveTriangles, h, h1, h2]
  · simp [construct, Mesh.empty]
  · simp [construct, h]

example : (0 : ℕ) ≠ 1 ∧ (2 : ℕ) ≠ 0 ∧ (2 : ℕ) ≠ 1 := by decide

/-- C128: with a usual library which does not test for it, a move assignment of a mesh to itself loses the mesh. -/
theorem C128_self_refuted (lib : Lib) (hs : ∀ (α : Type) (a : List α), lib.self a = []) (i : ℕ) (s : Store K) :
    moveAssign lib i i s i = Mesh.empty ∧ (s i ≠ Mesh.empty → moveAssign lib i i s i ≠ s i) := by
  have h : moveAssign lib i i s i = Mesh.empty := by simp [moveAssign, moveVertices, moveTriangles, hs, Mesh.empty]
  exact ⟨h, fun h1 h2 => h1 (by rw [← h2, h])⟩

example : ∃ lib : Lib, Usual lib ∧ (∀ (α : Type) (a : List α), lib.self a = []) ∧
    (fun _ => ⟨[⟨⟨0, 0, 0⟩, ⟨0, 0, 1⟩, ⟨0, 0⟩⟩], [⟨0, 0, 0⟩]⟩ : Store ℚ) 0 ≠ Mesh.empty :=
  ⟨⟨fun _ _ => [], fun _ => []⟩, ⟨fun _ _ _ => rfl, Or.inl fun _ _ => rfl⟩, fun _ _ => rfl, by decide⟩

/-- C128: in each library, `std::swap` exchanges the two meshes and changes no other mesh; a swap of a mesh with itself keeps it. -/
theorem C128_swap (lib : Lib) (i j : ℕ) (s : Store K) : swap lib i j s = fun k => s (Equiv.swap i j k) := by
  funext k
  by_cases h : i = j
  · subst h
    by_cases hk : k = i
    · subst hk; simp [swap, assignTemp, construct]
    · simp [swap, assignTemp, construct, moveAssign, moveVertices, moveTriangles]
  · by_cases hj : k = j
    · subst hj; simp [swap, assignTemp, construct]
    · by_cases hi : k = i
      · subst hi; simp [swap, assignTemp, construct, moveAssign, moveVertices, moveTriangles, h, Ne.symm h]
      · simp [swap, assignTemp, construct, moveAssign, moveVertices, moveTriangles, h, hi, hj, Equiv.swap_apply_of_ne_of_ne]

/-- C128: a run of swaps only permutes the meshes, and the permutation depends neither on the meshes nor on the library. -/
theorem C128_swaps (l : List (ℕ × ℕ)) : ∃ e : Equiv.Perm ℕ, ∀ (lib : Lib) (s : Store K),
    l.foldl (fun s x => Op.run lib s (.swap x.1 x.2)) s = fun k => s (e k) := by
  induction l with
  | nil => exact ⟨Equiv.refl _, fun _ _ => rfl⟩
  | cons x l ih =>
    obtain ⟨e, he⟩ := ih
    refine ⟨e.trans (Equiv.swap x.1 x.2), fun lib s => ?_⟩
    rw [List.foldl_cons, he]
    funext k
    simp only [Op.run, C128_swap, Equiv.trans_apply]

theorem valid_empty : Valid (⟨[], []⟩ : Mesh K) := by intro t ht; simp at ht

theorem update_valid {s : Store K} (hs : ∀ k, Valid (s k)) {i : ℕ} {m : Mesh K} (hm : Valid m) (k : ℕ) : Valid (Function.update s i m k) := by
  by_cases h : k = i
  · subst h; simpa using hm
  · simpa [h] using hs k

theorem moveAssign_usual {lib : Lib} (hl : Usual lib) (i j : ℕ) (s : Store K) (h : i ≠ j) :
    moveAssign lib i j s = Function.update (Function.update s j Mesh.empty) i (s j) := by
  funext k
  by_cases hi : k = i
  · subst hi; simp [moveAssign, moveVertices, moveTriangles, h, Ne.symm h]
  · by_cases hj : k = j
    · subst hj; simp [moveAssign, moveVertices, moveTriangles, h, Ne.symm h, hl.1, Mesh.empty]
    · simp [moveAssign, moveVertices, moveTriangles, h, hi, hj]

/-- C128: with the usual libraries, no sequence of moves, copies, swaps and clears makes a mesh whose triangles refer to missing vertices. -/
theorem C128_valid {lib : Lib} (hl : Usual lib) (ops : List Op) {s : Store K} (hs : ∀ k, Valid (s k)) :
    ∀ k, Valid (ops.foldl (Op.run lib) s k) := by
  induction ops generalizing s with
  | nil => exact hs
  | cons o ops ih =>
    refine ih ?_
    cases o with
    | init i j => exact update_valid (update_valid hs valid_empty) (hs j)
    | copy i j => exact update_valid hs (hs j)
    | clear i => exact update_valid hs valid_empty
    | swap i j => intro k; simp only [Op.run, C128_swap]; exact hs _
    | move i j =>
      simp only [Op.run]
      by_cases h : i = j
      · subst h
        rcases hl.2 with h0 | h0
        · simp only [moveAssign, moveVertices, moveTriangles, if_true, Function.update_self, Function.update_idem, h0]
          exact update_valid hs valid_empty
        · simp only [moveAssign, moveVertices, moveTriangles, if_true, Function.update_self, Function.update_idem, h0]
          exact update_valid hs (hs i)
      · rw [moveAssign_usual hl i j s h]
        exact update_valid (update_valid hs valid_empty) (hs j)

example : ∃ (lib : Lib) (s : Store ℚ), Usual lib ∧ (∀ k, Valid (s k)) ∧ (s 0).triangles ≠ [] :=
  ⟨⟨fun _ _ => [], fun a => a⟩, fun _ => ⟨[⟨⟨0, 0, 0⟩, ⟨0, 0, 1⟩, ⟨0, 0⟩⟩], [⟨0, 0, 0⟩]⟩, ⟨fun _ _ _ => rfl, Or.inr fun _ _ => rfl⟩,
    fun _ t ht i => by simp at ht; subst ht; fin_cases i <;> simp [corner], by simp⟩

/-- C128: the C++ standard alone does not give this: with a library which copies vectors of one element and empties longer ones, a mesh from which was
moved has a triangle without vertices. -/
theorem C128_valid_refuted : ∃ (lib : Lib) (s : Store ℚ), (∀ k, Valid (s k)) ∧ ¬Valid (moveAssign lib 0 1 s 1) := by
  refine ⟨⟨fun _ b => if b.length = 1 then b else [], fun a => a⟩,
    fun _ => ⟨[⟨⟨0, 0, 0⟩, ⟨0, 0, 1⟩, ⟨0, 0⟩⟩, ⟨⟨1, 0, 0⟩, ⟨0, 0, 1⟩, ⟨0, 0⟩⟩, ⟨⟨0, 1, 0⟩, ⟨0, 0, 1⟩, ⟨0, 0⟩⟩], [⟨0, 1, 2⟩]⟩, ?_, ?_⟩
  · intro _ t ht i; simp at ht; subst ht; fin_cases i <;> simp [corner]
  · intro h
    have := h ⟨0, 1, 2⟩ (by simp [moveAssign, moveVertices, moveTriangles]) 0
    simp [moveAssign, moveVertices, moveTriangles] at this

end Geom.TMesh.Props
