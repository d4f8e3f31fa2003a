import Verif.Props.TriangleMesh
import Verif.Model.BoundingBoxThreads
import Mathlib.Algebra.BigOperators.Group.Finset.Basic
import Mathlib.Algebra.Order.BigOperators.Group.Finset

/-
  C40: the multi-threaded bounding box.
-/
set_option autoImplicit false
set_option linter.unusedSectionVars false

namespace Geom.TMesh.Threads
open AABB (insertAll reset insertBox)
open AABB.Props (C01_merge C01_set)

variable {K : Type} [CLt K]

/-- The positions of a list of vertices. -/
def pos (vs : List (Vertex K)) : List (Fin 3 → K) := vs.map fun v => ![v.position.x, v.position.y, v.position.z]

theorem pos_append (a b : List (Vertex K)) : pos (a ++ b) = pos a ++ pos b := List.map_append

theorem boundingBox_pos (lo hi : K) (m : Mesh K) : boundingBox lo hi m = insertAll (reset lo hi) (pos m.vertices) := by
  unfold boundingBox insertAll pos
  rw [List.foldl_map]
  rfl

theorem insertAll_snoc (lo hi : K) (a : List (Vertex K)) (v : Vertex K) :
    AABB.insert (insertAll (reset lo hi) (pos a)) (coords v.position) = insertAll (reset lo hi) (pos (a ++ [v])) := by
  rw [pos_append]
  unfold insertAll
  rw [List.foldl_append]
  rfl

theorem take_drop_succ {α : Type} (l : List α) (a j : ℕ) (v : α) (h : l[a + j]? = some v) :
    (l.drop a).take (j + 1) = (l.drop a).take j ++ [v] := by
  rw [List.take_add_one, List.getElem?_drop, h]
  rfl

/-- The rest of the vertices, and the boxes of the first `i` workers. -/
def joinedBox (lo hi : K) (vs : List (Vertex K)) (T p i : ℕ) : AABB.Box 3 K :=
  (List.range i).foldl (fun b k => insertBox b (insertAll (reset lo hi) (pos ((vs.drop (p * k)).take p))))
    (insertAll (reset lo hi) (pos (vs.drop (p * T))))

theorem joinedBox_succ (lo hi : K) (vs : List (Vertex K)) (T p i : ℕ) :
    joinedBox lo hi vs T p (i + 1) = insertBox (joinedBox lo hi vs T p i) (insertAll (reset lo hi) (pos ((vs.drop (p * i)).take p))) := by
  unfold joinedBox
  rw [List.range_succ, List.foldl_append]
  rfl

/-- What the main thread has achieved. -/
def PcInv (lo hi : K) (vs : List (Vertex K)) (T p : ℕ) (s : St K) : Prop :=
  match s.pc with
  | .spawn i => i ≤ T ∧ s.box = reset lo hi
  | .rest j => p * T ≤ j ∧ j ≤ vs.length ∧
      s.box = insertAll (reset lo hi) (pos ((vs.drop (p * T)).take (j - p * T)))
  | .join i => i ≤ T ∧ s.box = joinedBox lo hi vs T p i
  | .done => s.box = joinedBox lo hi vs T p T
  | .ub => False

/-- The invariant of all threads. -/
structure Inv (lo hi : K) (vs : List (Vertex K)) (T p : ℕ) (s : St K) : Prop where
  le : ∀ i, s.progress i ≤ p
  sub : ∀ i, s.sub i = insertAll (reset lo hi) (pos ((vs.drop (p * i)).take (s.progress i)))
  pc : PcInv lo hi vs T p s

theorem created_le (lo hi : K) (vs : List (Vertex K)) (T p : ℕ) (s : St K) (h : PcInv lo hi vs T p s) :
    created T s.pc ≤ T := by
  unfold PcInv at h
  unfold created
  split at h
  · rename_i i hpc; rw [hpc]; exact h.1
  all_goals (rename_i hpc; rw [hpc])

theorem inv_start (lo hi : K) (vs : List (Vertex K)) (T p : ℕ) : Inv lo hi vs T p (start lo hi) :=
  ⟨fun _ => Nat.zero_le _, fun _ => rfl, ⟨Nat.zero_le _, rfl⟩⟩

theorem inv_main (lo hi : K) (vs : List (Vertex K)) (T p : ℕ) (hp : 0 < p) (hT : p * T ≤ vs.length) (s t : St K)
    (hs : Inv lo hi vs T p s) (h : mainStep vs T p s = some t) : Inv lo hi vs T p t := by
  obtain ⟨hle, hsub, hpc⟩ := hs
  obtain ⟨pc, progress, sub, box⟩ := s
  dsimp only at hle hsub
  cases pc with
  | spawn i =>
    simp only [mainStep] at h
    split_ifs at h with h1 h2
    · cases h; exact ⟨hle, hsub, ⟨h1, hpc.2⟩⟩
    · exfalso
      have := Nat.mul_lt_mul_of_pos_left h1 hp
      omega
    · cases h
      refine ⟨hle, hsub, le_rfl, hT, ?_⟩
      rw [Nat.sub_self]
      exact hpc.2
  | rest j =>
    obtain ⟨h1, h2, h3⟩ := hpc
    dsimp only at h3
    simp only [mainStep] at h
    split_ifs at h with h4
    · rw [List.getElem?_eq_getElem h4] at h
      cases h
      refine ⟨hle, hsub, by omega, h4, ?_⟩
      dsimp only
      rw [h3, insertAll_snoc, show j + 1 - p * T = (j - p * T) + 1 by omega,
        take_drop_succ vs (p * T) (j - p * T) vs[j] (by
          rw [show p * T + (j - p * T) = j by omega]; exact List.getElem?_eq_getElem h4)]
    · cases h
      refine ⟨hle, hsub, Nat.zero_le _, ?_⟩
      dsimp only
      rw [h3, List.take_of_length_le (by rw [List.length_drop]; omega)]
      rfl
  | join i =>
    obtain ⟨h1, h3⟩ := hpc
    dsimp only at h3
    simp only [mainStep] at h
    split_ifs at h with h4 h5
    · cases h
      refine ⟨hle, hsub, h4, ?_⟩
      dsimp only
      rw [joinedBox_succ, h3, hsub, le_antisymm (hle i) h5]
    · cases h
      refine ⟨hle, hsub, ?_⟩
      obtain rfl : i = T := by omega
      exact h3
  | done => cases h
  | ub => cases h

theorem inv_worker (lo hi : K) (vs : List (Vertex K)) (T p : ℕ) (hT : p * T ≤ vs.length) (i : ℕ)
    (s t : St K) (hs : Inv lo hi vs T p s) (h : workerStep vs T p i s = some t) : Inv lo hi vs T p t := by
  obtain ⟨hle, hsub, hpc⟩ := hs
  unfold workerStep at h
  split_ifs at h with h1
  obtain ⟨h1, h2⟩ := h1
  have hi := created_le lo hi vs T p s hpc
  have h3 : p * (i + 1) ≤ p * T := Nat.mul_le_mul_left p (by omega)
  rw [Nat.mul_succ] at h3
  have h4 : p * i + s.progress i < vs.length := by omega
  rw [List.getElem?_eq_getElem h4] at h
  cases h
  refine ⟨fun k => ?_, fun k => ?_, hpc⟩
  · dsimp only
    by_cases hk : k = i
    · subst hk; rw [Function.update_self]; exact h2
    · rw [Function.update_of_ne hk]; exact hle k
  · dsimp only
    by_cases hk : k = i
    · subst hk
      rw [Function.update_self, Function.update_self, hsub, insertAll_snoc,
        take_drop_succ vs (p * k) (s.progress k) _ (List.getElem?_eq_getElem h4)]
    · rw [Function.update_of_ne hk, Function.update_of_ne hk]; exact hsub k

theorem inv_reach (lo hi : K) (vs : List (Vertex K)) (T p : ℕ) (hp : 0 < p) (hT : p * T ≤ vs.length) (s : St K)
    (h : Reach lo hi vs T p s) : Inv lo hi vs T p s := by
  induction h with
  | start => exact inv_start lo hi vs T p
  | step _ h ih =>
    cases h with
    | main h => exact inv_main lo hi vs T p hp hT _ _ ih h
    | worker i h => exact inv_worker lo hi vs T p hT i _ _ ih h

theorem of_not_fallback (vs : List (Vertex K)) (T : ℕ) (h : fallback vs T = false) :
    clampCount vs T = T ∧ 0 < vs.length / T ∧ vs.length / T * T ≤ vs.length := by
  simp only [fallback, Bool.or_eq_false_iff, decide_eq_false_iff_not, not_lt] at h
  have h1 := Nat.div_mul_le_self vs.length T
  have h2 : 1 * T ≤ vs.length / T * T := Nat.mul_le_mul_right T (by omega)
  refine ⟨?_, by omega, h1⟩
  unfold clampCount
  dsimp only
  split_ifs <;> omega

/-- The box which does not depend on the order of the steps. -/
def threadedBox (lo hi : K) (m : Mesh K) (threadCount : ℕ) : AABB.Box 3 K :=
  if fallback m.vertices threadCount then boundingBox lo hi m
  else joinedBox lo hi m.vertices threadCount (m.vertices.length / threadCount) threadCount

/-- C40: all executions return the same box, whatever the comparison of the scalars is. -/
theorem C40_schedule (lo hi : K) (m : Mesh K) (threadCount : ℕ) (b : AABB.Box 3 K)
    (h : Returns lo hi m threadCount b) : b = threadedBox lo hi m threadCount := by
  cases h with
  | sequential h => rw [threadedBox, if_pos h]
  | @threads s h hr hd =>
    obtain ⟨hc, hp, hT⟩ := of_not_fallback m.vertices threadCount h
    rw [hc] at hr
    have := (inv_reach lo hi m.vertices threadCount _ hp hT s hr).pc
    unfold PcInv at this
    rw [hd] at this
    rw [threadedBox, if_neg (by rw [h]; exact Bool.false_ne_true)]
    exact this

/-- C40: no execution has undefined behaviour; in particular each access to a vertex is in range. -/
theorem C40_defined (lo hi : K) (m : Mesh K) (threadCount : ℕ) (h : fallback m.vertices threadCount = false)
    (s : St K) (hr : Reach lo hi m.vertices (clampCount m.vertices threadCount)
      (m.vertices.length / clampCount m.vertices threadCount) s) : s.pc ≠ .ub := by
  obtain ⟨hc, hp, hT⟩ := of_not_fallback m.vertices threadCount h
  rw [hc] at hr
  have := (inv_reach lo hi m.vertices threadCount _ hp hT s hr).pc
  intro hu
  unfold PcInv at this
  rw [hu] at this
  exact this

/-- C40: no deadlock; as long as the main thread has not returned some thread can make a step. -/
theorem C40_progress (lo hi : K) (m : Mesh K) (threadCount : ℕ) (h : fallback m.vertices threadCount = false)
    (s : St K) (hr : Reach lo hi m.vertices (clampCount m.vertices threadCount)
      (m.vertices.length / clampCount m.vertices threadCount) s) (hd : s.pc ≠ .done) :
    ∃ t, Step m.vertices (clampCount m.vertices threadCount) (m.vertices.length / clampCount m.vertices threadCount) s t := by
  have hu := C40_defined lo hi m threadCount h s hr
  obtain ⟨hc, hp, hT⟩ := of_not_fallback m.vertices threadCount h
  rw [hc] at hr ⊢
  have hinv := inv_reach lo hi m.vertices threadCount _ hp hT s hr
  obtain ⟨pc, progress, sub, box⟩ := s
  cases pc with
  | spawn i =>
    by_cases h1 : i < threadCount
    · exact ⟨_, .main (by rw [mainStep]; exact if_pos h1)⟩
    · exact ⟨_, .main (by rw [mainStep]; exact if_neg h1)⟩
  | rest i =>
    by_cases h1 : i < m.vertices.length
    · refine ⟨_, .main (t := ⟨.rest (i + 1), progress, sub, AABB.insert box (coords m.vertices[i].position)⟩) ?_⟩
      simp [mainStep, h1]
    · exact ⟨_, .main (by rw [mainStep]; exact if_neg h1)⟩
  | join i =>
    by_cases h1 : i < threadCount
    · by_cases h2 : m.vertices.length / threadCount ≤ progress i
      · exact ⟨⟨.join (i + 1), progress, sub, insertBox box (sub i)⟩, .main (by simp [mainStep, h1, h2])⟩
      · have h3 : m.vertices.length / threadCount * (i + 1) ≤ m.vertices.length / threadCount * threadCount :=
          Nat.mul_le_mul_left _ (by omega)
        rw [Nat.mul_succ] at h3
        have h4 : m.vertices.length / threadCount * i + progress i < m.vertices.length := by omega
        have h5 : i < created threadCount (Pc.join i) ∧ progress i < m.vertices.length / threadCount := ⟨h1, by omega⟩
        refine ⟨⟨.join i, Function.update progress i (progress i + 1),
          Function.update sub i (AABB.insert (sub i)
            (coords (m.vertices[m.vertices.length / threadCount * i + progress i]).position)), box⟩, .worker i ?_⟩
        unfold workerStep
        dsimp only
        rw [if_pos h5, List.getElem?_eq_getElem h4]
    · exact ⟨⟨.done, progress, sub, box⟩, .main (by rw [mainStep]; exact if_neg h1)⟩
  | done => exact absurd rfl hd
  | ub => exact absurd rfl hu

/-- What is left to do for the main thread. -/
def mainLeft (n T : ℕ) : Pc → ℕ
  | .spawn i => (T - i) + n + T + 4
  | .rest i => (n - i) + T + 3
  | .join i => (T - i) + 2
  | .done => 1
  | .ub => 0

/-- What is left to do for all threads. -/
def left (n T p : ℕ) (s : St K) : ℕ := mainLeft n T s.pc + ∑ i ∈ Finset.range T, (p - s.progress i)

theorem left_decreases (lo hi : K) (vs : List (Vertex K)) (T p : ℕ) (hp : 0 < p) (hT : p * T ≤ vs.length) (s t : St K)
    (hs : Reach lo hi vs T p s) (h : Step vs T p s t) : left vs.length T p t < left vs.length T p s := by
  have hinv := inv_reach lo hi vs T p hp hT s hs
  have hinv' := inv_reach lo hi vs T p hp hT t (.step hs h)
  cases h with
  | main h =>
    have : t.progress = s.progress ∧ mainLeft vs.length T t.pc < mainLeft vs.length T s.pc := by
      obtain ⟨pc, progress, sub, box⟩ := s
      cases pc with
      | spawn i =>
        simp only [mainStep] at h
        split_ifs at h with h1 h2 <;> cases h <;> refine ⟨rfl, ?_⟩ <;> simp only [mainLeft] <;> omega
      | rest j =>
        simp only [mainStep] at h
        split_ifs at h with h1
        · rw [List.getElem?_eq_getElem h1] at h
          cases h; refine ⟨rfl, ?_⟩; simp only [mainLeft]; omega
        · cases h; refine ⟨rfl, ?_⟩; simp only [mainLeft]; omega
      | join j =>
        simp only [mainStep] at h
        split_ifs at h with h1 h2 <;> cases h <;> refine ⟨rfl, ?_⟩ <;> simp only [mainLeft] <;> omega
      | done => cases h
      | ub => cases h
    unfold left
    rw [this.1]
    have := this.2
    omega
  | worker i h =>
    have hc := created_le lo hi vs T p s hinv.pc
    have hpc := hinv'.pc
    unfold workerStep at h
    split_ifs at h with h1
    cases hv : vs[p * i + s.progress i]? with
    | none => rw [hv] at h; cases h; exact hpc.elim
    | some v =>
      rw [hv] at h
      cases h
      unfold left
      dsimp only
      refine Nat.add_lt_add_left (Finset.sum_lt_sum (fun k _ => ?_) ⟨i, Finset.mem_range.2 (by omega), ?_⟩) _
      · by_cases hk : k = i
        · subst hk; rw [Function.update_self]; omega
        · rw [Function.update_of_ne hk]
      · rw [Function.update_self]; omega

/-- C40: each execution ends; there is no infinite sequence of steps. -/
theorem C40_terminates (lo hi : K) (m : Mesh K) (threadCount : ℕ) (h : fallback m.vertices threadCount = false)
    (f : ℕ → St K) (h0 : f 0 = start lo hi) :
    ¬ ∀ n, Step m.vertices (clampCount m.vertices threadCount)
      (m.vertices.length / clampCount m.vertices threadCount) (f n) (f (n + 1)) := by
  obtain ⟨hc, hp, hT⟩ := of_not_fallback m.vertices threadCount h
  rw [hc]
  intro hf
  have hr : ∀ n, Reach lo hi m.vertices threadCount (m.vertices.length / threadCount) (f n) := by
    intro n
    induction n with
    | zero => rw [h0]; exact .start
    | succ n ih => exact .step ih (hf n)
  have hb : ∀ n, left m.vertices.length threadCount (m.vertices.length / threadCount) (f n) + n ≤
      left m.vertices.length threadCount (m.vertices.length / threadCount) (f 0) := by
    intro n
    induction n with
    | zero => exact le_rfl
    | succ n ih =>
      have := left_decreases lo hi m.vertices threadCount _ hp hT _ _ (hr n) (hf n)
      omega
  have := hb (left m.vertices.length threadCount (m.vertices.length / threadCount) (f 0) + 1)
  omega

/-- C40: some execution returns. -/
theorem C40_ends (lo hi : K) (m : Mesh K) (threadCount : ℕ) : Returns lo hi m threadCount (threadedBox lo hi m threadCount) := by
  cases h : fallback m.vertices threadCount with
  | true => rw [threadedBox, if_pos h]; exact .sequential h
  | false =>
    have key : ∀ n (s : St K), left m.vertices.length threadCount (m.vertices.length / threadCount) s ≤ n →
        Reach lo hi m.vertices (clampCount m.vertices threadCount)
          (m.vertices.length / clampCount m.vertices threadCount) s →
        ∃ t, Reach lo hi m.vertices (clampCount m.vertices threadCount)
          (m.vertices.length / clampCount m.vertices threadCount) t ∧ t.pc = .done := by
      obtain ⟨hc, hp, hT⟩ := of_not_fallback m.vertices threadCount h
      intro n
      induction n with
      | zero =>
        intro s hn hr
        by_cases hd : s.pc = .done
        · exact ⟨s, hr, hd⟩
        · obtain ⟨t, ht⟩ := C40_progress lo hi m threadCount h s hr hd
          rw [hc] at hr ht
          have := left_decreases lo hi m.vertices threadCount _ hp hT _ _ hr ht
          omega
      | succ n ih =>
        intro s hn hr
        by_cases hd : s.pc = .done
        · exact ⟨s, hr, hd⟩
        · obtain ⟨t, ht⟩ := C40_progress lo hi m threadCount h s hr hd
          refine ih t ?_ (.step hr ht)
          rw [hc] at hr ht
          have := left_decreases lo hi m.vertices threadCount _ hp hT _ _ hr ht
          omega
    obtain ⟨t, ht, hd⟩ := key _ (start lo hi) le_rfl .start
    have := Returns.threads h ht hd
    rwa [C40_schedule lo hi m threadCount _ this] at this

section
variable {L : Type} [LinearOrder L]

theorem joinedBox_eq (lo hi : L) (vs : List (Vertex L)) (T p i : ℕ) :
    joinedBox lo hi vs T p i = insertAll (reset lo hi) (pos (vs.drop (p * T) ++ vs.take (p * i))) := by
  induction i with
  | zero => simp [joinedBox]
  | succ i ih =>
    rw [joinedBox_succ, ih, C01_merge, ← pos_append, List.append_assoc, ← List.take_add]
    rfl

theorem threadedBox_eq (lo hi : L) (m : Mesh L) (threadCount : ℕ) : threadedBox lo hi m threadCount = boundingBox lo hi m := by
  unfold threadedBox
  split_ifs with h
  · rfl
  rw [joinedBox_eq, boundingBox_eq]
  refine C01_set _ _ _ fun q => ?_
  have : positions m = pos (m.vertices.take (m.vertices.length / threadCount * threadCount)) ++
      pos (m.vertices.drop (m.vertices.length / threadCount * threadCount)) := by
    rw [← pos_append, List.take_append_drop]; rfl
  rw [this, pos_append, List.mem_append, List.mem_append, or_comm]

/-- C40: each execution of `BoundingBoxMultiThreaded` that returns, returns the box of `BoundingBox`. -/
theorem C40_result (lo hi : L) (m : Mesh L) (threadCount : ℕ) (b : AABB.Box 3 L)
    (h : Returns lo hi m threadCount b) : b = boundingBox lo hi m := by
  rw [C40_schedule lo hi m threadCount b h, threadedBox_eq]

/-- C40: some execution returns it. -/
theorem C40_returns (lo hi : L) (m : Mesh L) (threadCount : ℕ) : Returns lo hi m threadCount (boundingBox lo hi m) := by
  rw [← threadedBox_eq lo hi m threadCount]
  exact C40_ends lo hi m threadCount

/-! Numbers with NaN, and with two zeros. -/

open AABB (lift)
open AABB.Props (C04_history)

theorem merge_lift (lo hi : L) (a b : List (Fin 3 → Flt L)) :
    insertBox (insertAll (reset (.num lo) (.num hi)) a) (insertAll (reset (.num lo) (.num hi)) b) = insertAll (reset (Flt.num lo) (.num hi)) (a ++ b) := by
  have e : (reset (Flt.num lo) (.num hi) : AABB.Box 3 (Flt L)) = lift (reset lo hi) := rfl
  rw [e]
  obtain ⟨c, hc, h⟩ := C04_history a (reset lo hi : AABB.Box 3 L)
  obtain ⟨c', hc', h'⟩ := C04_history b (reset lo hi : AABB.Box 3 L)
  obtain ⟨d, hd, k⟩ := C04_history (a ++ b) (reset lo hi : AABB.Box 3 L)
  rw [hc, hc', hd]
  have e2 : insertBox (lift c) (lift c') = lift (insertBox c c') := by
    ext i <;> simp only [insertBox, lift] <;> exact (apply_ite Flt.num _ _ _).symm
  rw [e2]
  congr 1
  ext i
  · refine eq_of_forall_le_iff fun x => ?_
    rw [(k i).1, Geom.AABB.insertBox_min, le_min_iff, (h i).1, (h' i).1]
    simp only [List.mem_append, or_imp, forall_and]
    tauto
  · refine eq_of_forall_ge_iff fun x => ?_
    rw [(k i).2, Geom.AABB.insertBox_max, max_le_iff, (h i).2, (h' i).2]
    simp only [List.mem_append, or_imp, forall_and]
    tauto

theorem set_lift (lo hi : L) (a b : List (Fin 3 → Flt L)) (hab : ∀ p, p ∈ a ↔ p ∈ b) :
    insertAll (reset (Flt.num lo) (.num hi)) a = insertAll (reset (Flt.num lo) (.num hi)) b := by
  have e : (reset (Flt.num lo) (.num hi) : AABB.Box 3 (Flt L)) = lift (reset lo hi) := rfl
  rw [e]
  obtain ⟨c, hc, h⟩ := C04_history a (reset lo hi : AABB.Box 3 L)
  obtain ⟨d, hd, k⟩ := C04_history b (reset lo hi : AABB.Box 3 L)
  rw [hc, hd]
  congr 1
  ext i
  · refine eq_of_forall_le_iff fun x => ?_
    rw [(k i).1, (h i).1]; simp only [hab]
  · refine eq_of_forall_ge_iff fun x => ?_
    rw [(k i).2, (h i).2]; simp only [hab]

theorem threadedBox_lift (lo hi : L) (m : Mesh (Flt L)) (threadCount : ℕ) :
    threadedBox (.num lo) (.num hi) m threadCount = boundingBox (.num lo) (.num hi) m := by
  unfold threadedBox
  split_ifs with h
  · rfl
  have key : ∀ (T p i : ℕ), joinedBox (Flt.num lo) (.num hi) m.vertices T p i =
      insertAll (reset (.num lo) (.num hi)) (pos (m.vertices.drop (p * T) ++ m.vertices.take (p * i))) := by
    intro T p i
    induction i with
    | zero => simp [joinedBox]
    | succ i ih =>
      rw [joinedBox_succ, ih, merge_lift, ← pos_append, List.append_assoc, ← List.take_add]
      rfl
  have e : boundingBox (Flt.num lo) (.num hi) m = insertAll (reset (.num lo) (.num hi)) (pos m.vertices) := boundingBox_pos _ _ _
  rw [key, e]
  refine set_lift _ _ _ _ fun q => ?_
  conv_rhs => rw [← List.take_append_drop (m.vertices.length / threadCount * threadCount) m.vertices, pos_append, List.mem_append]
  rw [pos_append, List.mem_append, or_comm]

/-- A box with the numbers that the scalars stand for. -/
def mapBox (val : K → Flt L) (b : AABB.Box 3 K) : AABB.Box 3 (Flt L) := ⟨fun i => val (b.min i), fun i => val (b.max i)⟩

/-- A vertex with the numbers that the scalars stand for. -/
def mapVertex (val : K → Flt L) (v : Vertex K) : Vertex (Flt L) :=
  ⟨⟨val v.position.x, val v.position.y, val v.position.z⟩, ⟨val v.normal.x, val v.normal.y, val v.normal.z⟩, ⟨val v.texCoord.x, val v.texCoord.y⟩⟩

section
variable (val : K → Flt L) (hv : ∀ a b : K, CLt.lt a b = CLt.lt (val a) (val b))
include hv

theorem mapBox_insert (b : AABB.Box 3 K) (p : Fin 3 → K) : mapBox val (AABB.insert b p) = AABB.insert (mapBox val b) fun i => val (p i) := by
  ext i <;> simp only [mapBox, AABB.insert, ← hv] <;> exact apply_ite val _ _ _

theorem mapBox_insertBox (b c : AABB.Box 3 K) : mapBox val (insertBox b c) = insertBox (mapBox val b) (mapBox val c) := by
  ext i <;> simp only [mapBox, insertBox, ← hv] <;> exact apply_ite val _ _ _

theorem mapBox_insertAll (vs : List (Vertex K)) : ∀ b : AABB.Box 3 K,
    mapBox val (insertAll b (pos vs)) = insertAll (mapBox val b) (pos (vs.map (mapVertex val))) := by
  induction vs with
  | nil => intro b; rfl
  | cons v vs ih =>
    intro b
    refine (ih _).trans ?_
    rw [mapBox_insert val hv]
    have : (fun i => val ((![v.position.x, v.position.y, v.position.z] : Fin 3 → K) i)) = ![val v.position.x, val v.position.y, val v.position.z] := by
      funext i; fin_cases i <;> rfl
    rw [this]; rfl

theorem mapBox_joined (lo hi : K) (vs : List (Vertex K)) (T p i : ℕ) :
    mapBox val (joinedBox lo hi vs T p i) = joinedBox (val lo) (val hi) (vs.map (mapVertex val)) T p i := by
  have r : mapBox val (reset lo hi) = reset (val lo) (val hi) := rfl
  induction i with
  | zero =>
    simp only [joinedBox, List.range_zero, List.foldl_nil]
    rw [mapBox_insertAll val hv, r, List.map_drop]
  | succ i ih =>
    rw [joinedBox_succ, joinedBox_succ, mapBox_insertBox val hv, ih, mapBox_insertAll val hv, r, List.map_take, List.map_drop]

/-- C40 for IEEE numbers: the scalars stand for numbers or NaN, and are compared as these. Each execution returns the numbers of `BoundingBox`. -/
theorem C40_ieee {lo hi : K} {lo' hi' : L} (hlo : val lo = .num lo') (hhi : val hi = .num hi') (m : Mesh K) (threadCount : ℕ) (b : AABB.Box 3 K)
    (h : Returns lo hi m threadCount b) (i : Fin 3) :
    val (b.min i) = val ((boundingBox lo hi m).min i) ∧ val (b.max i) = val ((boundingBox lo hi m).max i) := by
  have e : mapBox val b = mapBox val (boundingBox lo hi m) := by
    have k := threadedBox_lift lo' hi' ⟨m.vertices.map (mapVertex val), []⟩ threadCount
    have e2 : boundingBox lo hi m = insertAll (reset lo hi) (pos m.vertices) := boundingBox_pos _ _ _
    have e3 : boundingBox (Flt.num lo') (.num hi') ⟨m.vertices.map (mapVertex val), []⟩ = insertAll (reset (.num lo') (.num hi')) (pos (m.vertices.map (mapVertex val))) := boundingBox_pos _ _ _
    have r : mapBox val (reset lo hi) = reset (.num lo') (.num hi') := by
      rw [← hlo, ← hhi]; rfl
    have e4 : mapBox val (boundingBox lo hi m) = boundingBox (Flt.num lo') (.num hi') ⟨m.vertices.map (mapVertex val), []⟩ := by
      rw [e2, e3, mapBox_insertAll val hv, r]
    rw [C40_schedule lo hi m threadCount b h, e4, ← k]
    have fb : fallback (m.vertices.map (mapVertex val)) threadCount = fallback m.vertices threadCount := by
      unfold fallback; rw [List.length_map]
    unfold threadedBox
    dsimp only
    rw [fb]
    split_ifs
    · exact e4
    · rw [mapBox_joined val hv, hlo, hhi, List.length_map]
  exact ⟨congrFun (congrArg AABB.Box.min e) i, congrFun (congrArg AABB.Box.max e) i⟩

end

end

/-- A rational number with a sign for zero. -/
structure Signed where
  value : ℚ
  negative : Bool
  deriving DecidableEq

instance : CLt Signed := ⟨fun a b => decide (a.value < b.value)⟩

/-- 129 vertices; the last one has a negative zero. -/
def zeroMesh : Mesh Signed :=
  ⟨(List.replicate 128 ⟨⟨⟨0, false⟩, ⟨0, false⟩, ⟨0, false⟩⟩, ⟨⟨0, false⟩, ⟨0, false⟩, ⟨0, false⟩⟩, ⟨⟨0, false⟩, ⟨0, false⟩⟩⟩) ++
    [⟨⟨⟨0, true⟩, ⟨0, false⟩, ⟨0, false⟩⟩, ⟨⟨0, false⟩, ⟨0, false⟩, ⟨0, false⟩⟩, ⟨⟨0, false⟩, ⟨0, false⟩⟩⟩], []⟩

/-- C40: the sign of a zero of the box may differ, since the threads insert the vertices in another order. Both zeros are equal as numbers. -/
theorem C40_zero_sign (b : AABB.Box 3 Signed) (h : Returns ⟨-1000, true⟩ ⟨1000, false⟩ zeroMesh 2 b) :
    b.min 0 = ⟨0, true⟩ ∧ (boundingBox ⟨-1000, true⟩ ⟨1000, false⟩ zeroMesh).min 0 = ⟨0, false⟩ := by
  rw [C40_schedule _ _ _ _ b h]
  decide +kernel

example : ∃ b, Returns ⟨-1000, true⟩ ⟨1000, false⟩ zeroMesh 2 b := ⟨_, C40_ends _ _ _ _⟩

/-- An instance of C40_ieee with both zeros. -/
example := C40_ieee (K := Signed) (fun x => Flt.num x.value) (fun _ _ => rfl) (lo := ⟨-1000, true⟩) (hi := ⟨1000, false⟩) rfl rfl zeroMesh 2 _ (C40_ends _ _ _ _)

/-- A mesh with NaN as coordinates. -/
def nanMesh : Mesh (Flt ℚ) :=
  ⟨(List.range 130).map fun (i : ℕ) => ⟨⟨if i % 3 = 0 then .nan else .num i, .num 2, .nan⟩, ⟨.num 0, .num 0, .num 0⟩, ⟨.num 0, .num 0⟩⟩, []⟩

example := C40_ieee (K := Flt ℚ) id (fun _ _ => rfl) (lo := .num (-1000)) (hi := .num 1000) rfl rfl nanMesh 2 _ (C40_ends _ _ _ _)

/-- C40: the ranges of the workers (`verticesPerThread` vertices from `verticesPerThread * i` on) and the rest cover
each vertex exactly once, and the range of each worker is inside of the vertices. -/
theorem C40_ranges (vs : List (Vertex K)) (T p : ℕ) (hT : p * T ≤ vs.length) :
    ((List.range T).flatMap fun i => (vs.drop (p * i)).take p) ++ vs.drop (p * T) = vs ∧
    ∀ i < T, ((vs.drop (p * i)).take p).length = p := by
  refine ⟨?_, fun i hi => ?_⟩
  swap
  · have := Nat.mul_le_mul_left p (show i + 1 ≤ T from hi)
    rw [Nat.mul_succ] at this
    rw [List.length_take, List.length_drop]
    omega
  have : ∀ k ≤ T, ((List.range k).flatMap fun i => (vs.drop (p * i)).take p) = vs.take (p * k) := by
    intro k hk
    induction k with
    | zero => simp
    | succ k ih =>
      rw [List.range_succ, List.flatMap_append, ih (by omega), Nat.mul_succ, List.take_add]
      simp
  rw [this T le_rfl, List.take_append_drop]

/-- The joined workers have ended. -/
def Joined (T p : ℕ) (s : St K) : Prop :=
  match s.pc with
  | .join i => i ≤ T ∧ ∀ k < i, p ≤ s.progress k
  | .done => ∀ k < T, p ≤ s.progress k
  | _ => True

theorem joined_reach (lo hi : K) (vs : List (Vertex K)) (T p : ℕ) (s : St K) (h : Reach lo hi vs T p s) : Joined T p s := by
  induction h with
  | start => exact trivial
  | @step s t _ h ih =>
    cases h with
    | main h =>
      obtain ⟨pc, progress, sub, box⟩ := s
      cases pc with
      | spawn i => simp only [mainStep] at h; split_ifs at h <;> cases h <;> exact trivial
      | rest i =>
        simp only [mainStep] at h
        split_ifs at h with h1
        · rw [List.getElem?_eq_getElem h1] at h; cases h; exact trivial
        · cases h; exact ⟨Nat.zero_le _, fun k hk => absurd hk (Nat.not_lt_zero k)⟩
      | join i =>
        obtain ⟨h0, ih⟩ := ih
        simp only [mainStep] at h
        split_ifs at h with h1 h2
        · cases h
          refine ⟨h1, fun k hk => ?_⟩
          rcases Nat.lt_succ_iff_lt_or_eq.1 hk with hk | rfl
          · exact ih k hk
          · exact h2
        · cases h; intro k hk; exact ih k (by omega)
      | done => cases h
      | ub => cases h
    | worker i h =>
      unfold workerStep at h
      split_ifs at h with h1
      have mono : ∀ k, s.progress k ≤ Function.update s.progress i (s.progress i + 1) k := by
        intro k
        by_cases hk : k = i
        · subst hk; rw [Function.update_self]; omega
        · rw [Function.update_of_ne hk]
      split at h
      · cases h
        obtain ⟨pc, progress, sub, box⟩ := s
        cases pc with
        | join j => exact ⟨ih.1, fun k hk => (ih.2 k hk).trans (mono k)⟩
        | done => intro k hk; exact (ih k hk).trans (mono k)
        | _ => exact trivial
      · cases h; exact trivial

/-- C40: threads are used if and only if at least two are asked for and each gets 64 vertices or more. Then exactly as many as
asked for are created and have ended when the function returns, each after the same number of vertices. -/
theorem C40_work (lo hi : K) (m : Mesh K) (threadCount : ℕ) :
    (fallback m.vertices threadCount = false ↔ 2 ≤ threadCount ∧ 64 * threadCount ≤ m.vertices.length) ∧
    (fallback m.vertices threadCount = false → ∀ s, Reach lo hi m.vertices (clampCount m.vertices threadCount)
        (m.vertices.length / clampCount m.vertices threadCount) s → s.pc = .done →
      clampCount m.vertices threadCount = threadCount ∧
      ∀ i < threadCount, s.progress i = m.vertices.length / threadCount ∧
        s.sub i = insertAll (reset lo hi) (pos ((m.vertices.drop (m.vertices.length / threadCount * i)).take (m.vertices.length / threadCount)))) := by
  constructor
  · simp only [fallback, Bool.or_eq_false_iff, decide_eq_false_iff_not, not_lt]
    constructor
    · rintro ⟨h1, h2⟩; exact ⟨h1, (Nat.le_div_iff_mul_le (by omega)).1 h2⟩
    · rintro ⟨h1, h2⟩; exact ⟨h1, (Nat.le_div_iff_mul_le (by omega)).2 h2⟩
  · intro h s hr hd
    obtain ⟨hc, hp, hT⟩ := of_not_fallback m.vertices threadCount h
    rw [hc] at hr
    refine ⟨hc, fun i hi' => ?_⟩
    have hinv := inv_reach lo hi m.vertices threadCount _ hp hT s hr
    have hj := joined_reach lo hi m.vertices threadCount _ s hr
    unfold Joined at hj
    rw [hd] at hj
    have he := le_antisymm (hinv.le i) (hj i hi')
    refine ⟨he, ?_⟩
    rw [hinv.sub i, he]

/-- 130 vertices and two threads: no fallback; the workers get 65 vertices each. -/
example : fallback (List.replicate 130 (⟨0, 0, 0⟩ : Vertex ℚ)) 2 = false ∧
    (List.replicate 130 (⟨0, 0, 0⟩ : Vertex ℚ)).length / 2 * 2 ≤ (List.replicate 130 (⟨0, 0, 0⟩ : Vertex ℚ)).length := by
  decide +kernel

/-- A mesh with 130 vertices, for two threads. -/
def sampleMesh : Mesh ℚ := ⟨(List.range 130).map fun (i : ℕ) => ⟨⟨i, -i, 2⟩, 0, 0⟩, []⟩

theorem sample_fallback : fallback sampleMesh.vertices 2 = false := by decide +kernel

/-- The main thread has created one worker; this worker has inserted one vertex. -/
theorem sample_reach : ∃ s, Reach (-1000) 1000 sampleMesh.vertices (clampCount sampleMesh.vertices 2)
    (sampleMesh.vertices.length / clampCount sampleMesh.vertices 2) s ∧ s.pc = .spawn 1 ∧ s.progress 0 = 1 := by
  have l : sampleMesh.vertices.length = 130 := by simp [sampleMesh]
  have c : clampCount sampleMesh.vertices 2 = 2 := by simp [clampCount, l]
  rw [c, l]
  refine ⟨_, .step (.step .start (.main (t := ⟨.spawn 1, fun _ => 0, fun _ => reset (-1000) 1000, reset (-1000) 1000⟩) ?_))
    (.worker 0 (t := ⟨.spawn 1, Function.update (fun _ => 0) 0 1, Function.update (fun _ => reset (-1000) 1000) 0
      (AABB.insert (reset (-1000) 1000) ![0, 0, 2]), reset (-1000) 1000⟩) ?_), rfl, rfl⟩
  · simp [mainStep, start, l]
  · simp [workerStep, created, sampleMesh, coords]

example := C40_result (-1000) 1000 sampleMesh 2 _ (C40_returns (-1000) 1000 sampleMesh 2)
example : ∃ s : St ℚ, s.pc ≠ .ub ∧ s.progress 0 = 1 :=
  sample_reach.imp fun s h => ⟨C40_defined _ _ _ _ sample_fallback s h.1, h.2.2⟩
example : ∃ s t : St ℚ, s.progress 0 = 1 ∧ Step sampleMesh.vertices (clampCount sampleMesh.vertices 2)
    (sampleMesh.vertices.length / clampCount sampleMesh.vertices 2) s t :=
  sample_reach.imp fun s h => (C40_progress _ _ _ _ sample_fallback s h.1 (by simp [h.2.1])).imp fun _ ht => ⟨h.2.2, ht⟩
example := C40_terminates (-1000) 1000 sampleMesh 2 sample_fallback (fun _ => start (-1000) 1000) rfl
example := C40_ranges sampleMesh.vertices 2 65 (by simp [sampleMesh])

end Geom.TMesh.Threads
