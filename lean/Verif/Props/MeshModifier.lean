import Verif.Spec.MeshModifier
import Verif.Props.TriangleMesh

/-
  C41: interpolation of vertex buffers.
-/
set_option autoImplicit false
set_option linter.unusedSectionVars false

namespace Geom.TMesh
open Spec

variable {K : Type}

/-- C41: stride 0 means tightly packed vertices. -/
theorem C41_stride (sz : ℕ) (d : Desc) : vertexStride sz d = strideOf sz d := by
  unfold vertexStride strideOf
  split_ifs with h
  · rw [h]
    have : ∀ (l : List Attr) (s : ℕ), l.foldl (fun s a => s + a.components * sz) s = s + (l.map fun a => a.components).sum * sz := by
      intro l
      induction l with
      | nil => simp
      | cons a l ih => intro s; rw [List.foldl_cons, ih, List.map_cons, List.sum_cons, Nat.add_mul]; omega
    rw [this, Nat.zero_add]
  · rfl

theorem readAt_ok (sz : ℕ) (hsz : 0 < sz) (buf : List K) (addr : ℕ) (x : K) :
    readAt sz buf addr = .ok x ↔ ∃ c, c * sz = addr ∧ buf[c]? = some x := by
  unfold readAt
  constructor
  · intro h
    split_ifs at h with h1
    exact ⟨addr / sz, Nat.div_mul_cancel (Nat.dvd_of_mod_eq_zero h1), (getR_ok _ _ _).1 h⟩
  · rintro ⟨c, rfl, h⟩
    rw [if_pos (Nat.mul_mod_left c sz), Nat.mul_div_cancel c hsz]
    exact (getR_ok _ _ _).2 h

theorem readAt_total (sz : ℕ) (buf : List K) (addr : ℕ) : (∃ x, readAt sz buf addr = .ok x) ∨ readAt sz buf addr = .ub := by
  unfold readAt getR
  split_ifs
  · cases buf[addr / sz]? with
    | none => exact .inr rfl
    | some x => exact .inl ⟨x, rfl⟩
  · exact .inr rfl

theorem writeAt_ok (sz : ℕ) (hsz : 0 < sz) (buf buf' : List K) (addr : ℕ) (x : K) :
    writeAt sz buf addr x = .ok buf' ↔ ∃ c, c * sz = addr ∧ c < buf.length ∧ buf' = buf.set c x := by
  unfold writeAt
  constructor
  · intro h
    split_ifs at h with h1
    cases h
    exact ⟨addr / sz, Nat.div_mul_cancel (Nat.dvd_of_mod_eq_zero h1.1), h1.2, rfl⟩
  · rintro ⟨c, rfl, h, rfl⟩
    rw [Nat.mul_div_cancel c hsz, if_pos ⟨Nat.mul_mod_left c sz, h⟩]

theorem writeAt_total (sz : ℕ) (buf : List K) (addr : ℕ) (x : K) :
    (∃ b, writeAt sz buf addr x = .ok b) ∨ writeAt sz buf addr x = .ub := by
  unfold writeAt
  split_ifs
  · exact .inl ⟨_, rfl⟩
  · exact .inr rfl

section interp
variable [Add K] [Mul K] (sz : ℕ) (hsz : 0 < sz) (d : Desc) (input : List K) (v0 v1 v2 : ℕ) (bc : V3 K)

/-- `x` is the combination of cell `c` of the three vertices. -/
def Val (c : ℕ) (x : K) : Prop :=
  ∃ c0 c1 c2 x0 x1 x2, c0 * sz = v0 * strideOf sz d + c * sz ∧ c1 * sz = v1 * strideOf sz d + c * sz ∧
    c2 * sz = v2 * strideOf sz d + c * sz ∧ input[c0]? = some x0 ∧ input[c1]? = some x1 ∧ input[c2]? = some x2 ∧
    x = x0 * bc.x + x1 * bc.y + x2 * bc.z

/-- The accesses for component `i` of an attribute are in range. -/
def FitsAt (n : ℕ) (a : Attr) (i : ℕ) : Prop :=
  (∃ c < n, c * sz = a.offset + i * sz) ∧
    ∀ v, v = v0 ∨ v = v1 ∨ v = v2 → ∃ c < input.length, c * sz = v * strideOf sz d + a.offset + i * sz

include hsz in
theorem interpOne_ok (a : Attr) (i : ℕ) (out : List K) (h : FitsAt sz d input v0 v1 v2 out.length a i) :
    ∃ out', interpOne sz d a input v0 v1 v2 bc i out = .ok out' ∧ out'.length = out.length ∧
      ∀ c, (c * sz = a.offset + i * sz → ∃ x, out'[c]? = some x ∧ Val sz d input v0 v1 v2 bc c x) ∧
        (c * sz ≠ a.offset + i * sz → out'[c]? = out[c]?) := by
  obtain ⟨⟨c, hc, hc'⟩, hv⟩ := h
  obtain ⟨c0, hl0, hc0⟩ := hv v0 (.inl rfl)
  obtain ⟨c1, hl1, hc1⟩ := hv v1 (.inr (.inl rfl))
  obtain ⟨c2, hl2, hc2⟩ := hv v2 (.inr (.inr rfl))
  have r0 : readAt sz input (attribAddr sz d a v0 + i * sz) = .ok input[c0] :=
    (readAt_ok sz hsz _ _ _).2 ⟨c0, by rw [hc0, attribAddr, C41_stride], List.getElem?_eq_getElem hl0⟩
  have r1 : readAt sz input (attribAddr sz d a v1 + i * sz) = .ok input[c1] :=
    (readAt_ok sz hsz _ _ _).2 ⟨c1, by rw [hc1, attribAddr, C41_stride], List.getElem?_eq_getElem hl1⟩
  have r2 : readAt sz input (attribAddr sz d a v2 + i * sz) = .ok input[c2] :=
    (readAt_ok sz hsz _ _ _).2 ⟨c2, by rw [hc2, attribAddr, C41_stride], List.getElem?_eq_getElem hl2⟩
  have w := (writeAt_ok sz hsz out _ (attribAddr sz d a 0 + i * sz) (input[c0] * bc.x + input[c1] * bc.y + input[c2] * bc.z)).2
    ⟨c, by rw [hc', attribAddr, Nat.zero_mul, Nat.zero_add], hc, rfl⟩
  refine ⟨out.set c (input[c0] * bc.x + input[c1] * bc.y + input[c2] * bc.z), ?_, List.length_set .., fun k => ⟨fun hk => ?_,
    fun hk => ?_⟩⟩
  · unfold interpOne
    rw [r0, r1, r2]
    exact w
  · obtain rfl : k = c := Nat.eq_of_mul_eq_mul_right hsz (hk.trans hc'.symm)
    refine ⟨_, by rw [List.getElem?_set_self hc], c0, c1, c2, _, _, _, ?_, ?_, ?_, List.getElem?_eq_getElem hl0,
      List.getElem?_eq_getElem hl1, List.getElem?_eq_getElem hl2, rfl⟩ <;> omega
  · rw [List.getElem?_set_ne]
    rintro rfl
    exact hk hc'

include hsz in
theorem interpOne_ub (a : Attr) (i : ℕ) (out : List K) (h : ¬ FitsAt sz d input v0 v1 v2 out.length a i) :
    interpOne sz d a input v0 v1 v2 bc i out = .ub := by
  unfold interpOne
  have key : ∀ v x, readAt sz input (attribAddr sz d a v + i * sz) = .ok x →
      ∃ c < input.length, c * sz = v * strideOf sz d + a.offset + i * sz := by
    intro v x hx
    obtain ⟨c, h1, h2⟩ := (readAt_ok sz hsz _ _ _).1 hx
    exact ⟨c, (List.getElem?_eq_some_iff.1 h2).1, by rw [h1, attribAddr, C41_stride]⟩
  rcases readAt_total sz input (attribAddr sz d a v0 + i * sz) with ⟨x0, h0⟩ | h0
  swap
  · rw [h0]; rfl
  rcases readAt_total sz input (attribAddr sz d a v1 + i * sz) with ⟨x1, h1⟩ | h1
  swap
  · rw [h0, h1]; rfl
  rcases readAt_total sz input (attribAddr sz d a v2 + i * sz) with ⟨x2, h2⟩ | h2
  swap
  · rw [h0, h1, h2]; rfl
  rw [h0, h1, h2]
  simp only [Res.bind]
  rcases writeAt_total sz out (attribAddr sz d a 0 + i * sz) (x0 * bc.x + x1 * bc.y + x2 * bc.z) with ⟨o, h3⟩ | h3
  swap
  · exact h3
  obtain ⟨c, hc, hc', _⟩ := (writeAt_ok sz hsz _ _ _ _).1 h3
  refine absurd ⟨⟨c, hc', by rw [hc, attribAddr, Nat.zero_mul, Nat.zero_add]⟩, ?_⟩ h
  rintro v (rfl | rfl | rfl)
  · exact key _ _ h0
  · exact key _ _ h1
  · exact key _ _ h2

include hsz in
theorem interpAttr_ok (a : Attr) (n i : ℕ) (out : List K)
    (h : ∀ j, i ≤ j → j < i + n → FitsAt sz d input v0 v1 v2 out.length a j) :
    ∃ out', interpAttr sz d a input v0 v1 v2 bc i n out = .ok out' ∧ out'.length = out.length ∧
      ∀ c, ((∃ j, i ≤ j ∧ j < i + n ∧ c * sz = a.offset + j * sz) → ∃ x, out'[c]? = some x ∧ Val sz d input v0 v1 v2 bc c x) ∧
        ((¬ ∃ j, i ≤ j ∧ j < i + n ∧ c * sz = a.offset + j * sz) → out'[c]? = out[c]?) := by
  induction n generalizing i out with
  | zero =>
    refine ⟨out, rfl, rfl, fun c => ⟨?_, fun _ => rfl⟩⟩
    rintro ⟨j, h1, h2, _⟩
    omega
  | succ n ih =>
    obtain ⟨o1, e1, l1, p1⟩ := interpOne_ok sz hsz d input v0 v1 v2 bc a i out (h i le_rfl (by omega))
    obtain ⟨o2, e2, l2, p2⟩ := ih (i + 1) o1 fun j hj hj' => by rw [l1]; exact h j (by omega) (by omega)
    refine ⟨o2, by rw [interpAttr, e1]; exact e2, l2.trans l1, fun c => ?_⟩
    by_cases hr : ∃ j, i + 1 ≤ j ∧ j < i + 1 + n ∧ c * sz = a.offset + j * sz
    · refine ⟨fun _ => (p2 c).1 hr, fun hn => ?_⟩
      obtain ⟨j, h1, h2, h3⟩ := hr
      exact absurd ⟨j, by omega, by omega, h3⟩ hn
    · have hs := (p2 c).2 hr
      by_cases hi : c * sz = a.offset + i * sz
      · refine ⟨fun _ => by rw [hs]; exact (p1 c).1 hi, fun hn => absurd ⟨i, le_rfl, by omega, hi⟩ hn⟩
      · refine ⟨?_, fun _ => hs.trans ((p1 c).2 hi)⟩
        rintro ⟨j, h1, h2, h3⟩
        rcases Nat.eq_or_lt_of_le h1 with rfl | h1
        · exact absurd h3 hi
        · exact absurd ⟨j, h1, by omega, h3⟩ hr

include hsz in
theorem interpAttr_ub (a : Attr) (n i : ℕ) (out : List K)
    (h : ∃ j, i ≤ j ∧ j < i + n ∧ ¬ FitsAt sz d input v0 v1 v2 out.length a j) :
    interpAttr sz d a input v0 v1 v2 bc i n out = .ub := by
  induction n generalizing i out with
  | zero => obtain ⟨j, h1, h2, _⟩ := h; omega
  | succ n ih =>
    rw [interpAttr]
    by_cases hi : FitsAt sz d input v0 v1 v2 out.length a i
    · obtain ⟨o1, e1, l1, _⟩ := interpOne_ok sz hsz d input v0 v1 v2 bc a i out hi
      rw [e1]
      refine ih (i + 1) o1 ?_
      obtain ⟨j, h1, h2, h3⟩ := h
      rcases Nat.eq_or_lt_of_le h1 with rfl | h1
      · exact absurd hi h3
      · exact ⟨j, h1, by omega, by rw [l1]; exact h3⟩
    · rw [interpOne_ub sz hsz d input v0 v1 v2 bc a i out hi]; rfl

include hsz in
theorem interpAttrs_ok (l : List Attr) (out : List K)
    (h : ∀ a ∈ l, ∀ j < a.components, FitsAt sz d input v0 v1 v2 out.length a j) :
    ∃ out', interpAttrs sz d input v0 v1 v2 bc l out = .ok out' ∧ out'.length = out.length ∧
      ∀ c, ((∃ a ∈ l, ∃ j < a.components, c * sz = a.offset + j * sz) → ∃ x, out'[c]? = some x ∧ Val sz d input v0 v1 v2 bc c x) ∧
        ((¬ ∃ a ∈ l, ∃ j < a.components, c * sz = a.offset + j * sz) → out'[c]? = out[c]?) := by
  induction l generalizing out with
  | nil => exact ⟨out, rfl, rfl, fun c => ⟨by simp, fun _ => rfl⟩⟩
  | cons a l ih =>
    obtain ⟨o1, e1, l1, p1⟩ := interpAttr_ok sz hsz d input v0 v1 v2 bc a a.components 0 out
      fun j _ hj => h a List.mem_cons_self j (by omega)
    obtain ⟨o2, e2, l2, p2⟩ := ih o1 fun b hb j hj => by rw [l1]; exact h b (List.mem_cons_of_mem _ hb) j hj
    refine ⟨o2, by rw [interpAttrs, e1]; exact e2, l2.trans l1, fun c => ?_⟩
    by_cases hr : ∃ b ∈ l, ∃ j < b.components, c * sz = b.offset + j * sz
    · refine ⟨fun _ => (p2 c).1 hr, fun hn => ?_⟩
      obtain ⟨b, hb, hj⟩ := hr
      exact absurd ⟨b, List.mem_cons_of_mem _ hb, hj⟩ hn
    · have hs := (p2 c).2 hr
      by_cases hi : ∃ j, 0 ≤ j ∧ j < 0 + a.components ∧ c * sz = a.offset + j * sz
      · refine ⟨fun _ => by rw [hs]; exact (p1 c).1 hi, fun hn => ?_⟩
        obtain ⟨j, _, h2, h3⟩ := hi
        exact absurd ⟨a, List.mem_cons_self, j, by omega, h3⟩ hn
      · refine ⟨?_, fun _ => hs.trans ((p1 c).2 hi)⟩
        rintro ⟨b, hb, j, hj, h3⟩
        rcases List.mem_cons.1 hb with rfl | hb
        · exact absurd ⟨j, Nat.zero_le _, by omega, h3⟩ hi
        · exact absurd ⟨b, hb, j, hj, h3⟩ hr

include hsz in
theorem interpAttrs_ub (l : List Attr) (out : List K)
    (h : ∃ a ∈ l, ∃ j < a.components, ¬ FitsAt sz d input v0 v1 v2 out.length a j) :
    interpAttrs sz d input v0 v1 v2 bc l out = .ub := by
  induction l generalizing out with
  | nil => obtain ⟨a, ha, _⟩ := h; cases ha
  | cons a l ih =>
    rw [interpAttrs]
    by_cases hi : ∀ j < a.components, FitsAt sz d input v0 v1 v2 out.length a j
    · obtain ⟨o1, e1, l1, _⟩ := interpAttr_ok sz hsz d input v0 v1 v2 bc a a.components 0 out
        fun j _ hj => hi j (by omega)
      rw [e1]
      refine ih o1 ?_
      obtain ⟨b, hb, j, hj, hn⟩ := h
      rcases List.mem_cons.1 hb with rfl | hb
      · exact absurd (hi j hj) hn
      · exact ⟨b, hb, j, hj, by rw [l1]; exact hn⟩
    · push Not at hi
      obtain ⟨j, hj, hn⟩ := hi
      rw [interpAttr_ub sz hsz d input v0 v1 v2 bc a a.components 0 out ⟨j, Nat.zero_le _, by omega, hn⟩]
      rfl

include hsz in
/-- C41: if the described components are inside of the buffers, each of them is the combination of the components of the
three vertices, and the rest of the output buffer stays. -/
theorem C41_interpolates (out : List K) (h : Fits sz d out input v0 v1 v2) :
    ∃ out', interpolate sz d out input v0 v1 v2 bc = .ok out' ∧ out'.length = out.length ∧
      ∀ c, (¬ Described sz d c → out'[c]? = out[c]?) ∧
        (Described sz d c → ∃ c0 c1 c2 x0 x1 x2,
          c0 * sz = v0 * strideOf sz d + c * sz ∧ c1 * sz = v1 * strideOf sz d + c * sz ∧
          c2 * sz = v2 * strideOf sz d + c * sz ∧ input[c0]? = some x0 ∧ input[c1]? = some x1 ∧ input[c2]? = some x2 ∧
          out'[c]? = some (x0 * bc.x + x1 * bc.y + x2 * bc.z)) := by
  obtain ⟨o, e, l, p⟩ := interpAttrs_ok sz hsz d input v0 v1 v2 bc d.attributes out h
  refine ⟨o, e, l, fun c => ⟨(p c).2, fun hc => ?_⟩⟩
  obtain ⟨x, hx, c0, c1, c2, x0, x1, x2, h0, h1, h2, i0, i1, i2, rfl⟩ := (p c).1 hc
  exact ⟨c0, c1, c2, x0, x1, x2, h0, h1, h2, i0, i1, i2, hx⟩

include hsz in
/-- C41: otherwise the behaviour is undefined. -/
theorem C41_undefined (out : List K) :
    interpolate sz d out input v0 v1 v2 bc = .ub ↔ ¬ Fits sz d out input v0 v1 v2 := by
  constructor
  · intro h hf
    obtain ⟨o, e, _⟩ := C41_interpolates sz hsz d input v0 v1 v2 bc out hf
    rw [e] at h
    cases h
  · intro h
    refine interpAttrs_ub sz hsz d input v0 v1 v2 bc d.attributes out ?_
    by_contra hc
    push Not at hc
    exact h hc

end interp

/-- Vertices of three cells, of which the first and the third are described; the second cell of the output stays. -/
example : interpolate 4 ⟨[⟨0, 1⟩, ⟨8, 1⟩], 12⟩ [7, 7, 7] [1, 2, 3, 11, 12, 13, 21, 22, 23] 2 0 1 (⟨1 / 2, 1 / 4, 1 / 4⟩ : V3 ℚ) =
    .ok [27 / 2, 7, 31 / 2] := by decide +kernel
example : Described 4 ⟨[⟨0, 1⟩, ⟨8, 1⟩], 12⟩ 2 ∧ ¬ Described 4 ⟨[⟨0, 1⟩, ⟨8, 1⟩], 12⟩ 1 := by
  unfold Described; decide
theorem sample_fits : Fits 4 ⟨[⟨0, 1⟩, ⟨8, 1⟩], 12⟩ ([7, 7, 7] : List ℚ) [1, 2, 3, 11, 12, 13, 21, 22, 23] 2 0 1 := by
  by_contra h
  have := (C41_undefined 4 (by decide) ⟨[⟨0, 1⟩, ⟨8, 1⟩], 12⟩ ([1, 2, 3, 11, 12, 13, 21, 22, 23] : List ℚ) 2 0 1
    ⟨1 / 2, 1 / 4, 1 / 4⟩ [7, 7, 7]).2 h
  revert this
  decide +kernel

example := C41_interpolates 4 (by decide) _ _ 2 0 1 (⟨1 / 2, 1 / 4, 1 / 4⟩ : V3 ℚ) _ sample_fits

/-! `Barycentric` of a mesh. -/

theorem flat_getElem (l : List (Vertex K)) (i j : ℕ) (v : Vertex K) (h : l[i]? = some v) (hj : j < 8) :
    (l.flatMap cells)[8 * i + j]? = (cells v)[j]? := by
  induction l generalizing i with
  | nil => simp at h
  | cons a l ih =>
    rw [List.flatMap_cons]
    cases i with
    | zero =>
      rw [List.getElem?_cons_zero] at h
      cases h
      rw [Nat.mul_zero, Nat.zero_add, List.getElem?_append_left (by simpa [cells] using hj)]
    | succ i =>
      rw [List.getElem?_cons_succ] at h
      have hl : (cells a).length = 8 := rfl
      rw [List.getElem?_append_right (by omega), hl, show 8 * (i + 1) + j - 8 = 8 * i + j by omega]
      exact ih i h

section bary
variable [Add K] [Mul K]

/-- C41: for a valid triangle of a mesh `Barycentric` combines all attributes of its corners. -/
theorem C41_barycentric (sz : ℕ) (hsz : 0 < sz) (zero : Vertex K) (m : Mesh K) (k : ℕ) (t : Ix) (a b c : Vertex K) (w : V3 K)
    (ht : m.triangles[k]? = some t) (ha : m.vertices[t.a]? = some a) (hb : m.vertices[t.b]? = some b)
    (hc : m.vertices[t.c]? = some c) : ∃ v, barycentric sz zero m k w = .ok v ∧ Combines v a b c w := by
  have hs : strideOf sz (defaultDesc sz) = 8 * sz := rfl
  have hlen : ∀ (i j : ℕ) (v : Vertex K), m.vertices[i]? = some v → j < 8 → 8 * i + j < (m.vertices.flatMap cells).length := by
    intro i j v hv hj
    have h1 := flat_getElem m.vertices i j v hv hj
    have h2 : j < (cells v).length := by simpa [cells] using hj
    rw [List.getElem?_eq_getElem h2] at h1
    exact (List.getElem?_eq_some_iff.1 h1).1
  have hd : ∀ j < 8, Described sz (defaultDesc sz) j := by
    intro j hj
    unfold Described defaultDesc
    rcases Nat.lt_or_ge j 3 with h | h
    · exact ⟨⟨0, 3⟩, by simp, j, h, by simp⟩
    · rcases Nat.lt_or_ge j 6 with h' | h'
      · refine ⟨⟨3 * sz, 3⟩, by simp, j - 3, by dsimp only; omega, ?_⟩
        dsimp only
        rw [← Nat.add_mul, Nat.add_sub_cancel' h]
      · refine ⟨⟨6 * sz, 2⟩, by simp, j - 6, by dsimp only; omega, ?_⟩
        dsimp only
        rw [← Nat.add_mul, Nat.add_sub_cancel' h']
  have hfit : Fits sz (defaultDesc sz) (cells zero) (m.vertices.flatMap cells) t.a t.b t.c := by
    have key : ∀ a ∈ (defaultDesc sz).attributes, ∀ i < a.components, ∃ c < 8, c * sz = a.offset + i * sz := by
      intro a ha i hi
      simp only [defaultDesc, List.mem_cons, List.not_mem_nil, or_false] at ha
      rcases ha with rfl | rfl | rfl <;> dsimp only at hi ⊢
      · exact ⟨i, by omega, by omega⟩
      · exact ⟨3 + i, by omega, Nat.add_mul ..⟩
      · exact ⟨6 + i, by omega, Nat.add_mul ..⟩
    intro x hx i hi
    obtain ⟨j, hj, hj'⟩ := key x hx i hi
    refine ⟨⟨j, by simpa [cells] using hj, hj'⟩, ?_⟩
    have : ∀ (n : ℕ) (v : Vertex K), m.vertices[n]? = some v → ∃ c < (m.vertices.flatMap cells).length,
        c * sz = n * strideOf sz (defaultDesc sz) + x.offset + i * sz := by
      intro n v hv
      refine ⟨8 * n + j, hlen n j v hv hj, ?_⟩
      rw [hs, Nat.add_assoc, ← hj', Nat.add_mul]
      congr 1
      ring
    rintro v (rfl | rfl | rfl)
    · exact this _ _ ha
    · exact this _ _ hb
    · exact this _ _ hc
  obtain ⟨o, e, l, p⟩ := C41_interpolates sz hsz (defaultDesc sz) (m.vertices.flatMap cells) t.a t.b t.c w (cells zero) hfit
  have hval : ∀ j, (hj : j < 8) → ∃ xa xb xc, (cells a)[j]? = some xa ∧ (cells b)[j]? = some xb ∧ (cells c)[j]? = some xc ∧
      o[j]? = some (xa * w.x + xb * w.y + xc * w.z) := by
    intro j hj
    obtain ⟨c0, c1, c2, x0, x1, x2, h0, h1, h2, i0, i1, i2, ho⟩ := (p j).2 (hd j hj)
    have hcell : ∀ n c', c' * sz = n * strideOf sz (defaultDesc sz) + j * sz → c' = 8 * n + j := by
      intro n c' h
      refine Nat.eq_of_mul_eq_mul_right hsz ?_
      rw [h, hs, Nat.add_mul]
      congr 1
      ring
    rw [hcell _ _ h0, flat_getElem _ _ _ _ ha hj] at i0
    rw [hcell _ _ h1, flat_getElem _ _ _ _ hb hj] at i1
    rw [hcell _ _ h2, flat_getElem _ _ _ _ hc hj] at i2
    exact ⟨x0, x1, x2, i0, i1, i2, ho⟩
  have hl : o.length = 8 := l
  obtain ⟨o0, o1, o2, o3, o4, o5, o6, o7, rfl⟩ : ∃ o0 o1 o2 o3 o4 o5 o6 o7, o = [o0, o1, o2, o3, o4, o5, o6, o7] := by
    match o, hl with
    | [o0, o1, o2, o3, o4, o5, o6, o7], _ => exact ⟨o0, o1, o2, o3, o4, o5, o6, o7, rfl⟩
  refine ⟨⟨⟨o0, o1, o2⟩, ⟨o3, o4, o5⟩, ⟨o6, o7⟩⟩, ?_, ?_⟩
  · unfold barycentric
    rw [(getR_ok _ _ _).2 ht]
    simp only [Res.bind, e]
    rfl
  · have get : ∀ j, (hj : j < 8) → ∀ xa xb xc y, (cells a)[j]? = some xa → (cells b)[j]? = some xb → (cells c)[j]? = some xc →
        [o0, o1, o2, o3, o4, o5, o6, o7][j]? = some y → y = xa * w.x + xb * w.y + xc * w.z := by
      intro j hj xa xb xc y h1 h2 h3 h4
      obtain ⟨ya, yb, yc, g1, g2, g3, g4⟩ := hval j hj
      rw [h1] at g1; rw [h2] at g2; rw [h3] at g3; rw [h4] at g4
      cases g1; cases g2; cases g3; cases g4
      rfl
    exact ⟨get 0 (by decide) _ _ _ _ rfl rfl rfl rfl, get 1 (by decide) _ _ _ _ rfl rfl rfl rfl,
      get 2 (by decide) _ _ _ _ rfl rfl rfl rfl, get 3 (by decide) _ _ _ _ rfl rfl rfl rfl,
      get 4 (by decide) _ _ _ _ rfl rfl rfl rfl, get 5 (by decide) _ _ _ _ rfl rfl rfl rfl,
      get 6 (by decide) _ _ _ _ rfl rfl rfl rfl, get 7 (by decide) _ _ _ _ rfl rfl rfl rfl⟩

end bary

example : exMesh.triangles[0]? = some ⟨0, 1, 2⟩ ∧
    barycentric 4 ⟨0, 0, 0⟩ exMesh 0 ⟨1 / 2, 1 / 4, 1 / 4⟩ = .ok ⟨⟨1 / 4, 1 / 4, 0⟩, ⟨0, 0, 1⟩, ⟨1 / 4, 1 / 4⟩⟩ := by
  decide +kernel

end Geom.TMesh
