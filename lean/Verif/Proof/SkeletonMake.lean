import Verif.Proof.Skeleton
import Verif.Spec.SkeletonMake

/-
  Copies of joint forests with a function of the client.
-/
set_option autoImplicit false

namespace Geom.Skeleton

variable {M X : Type}

/-- Path and data of a visited joint. -/
def Visit.key (v : Visit M X) : List Nat × Data M X := (v.path, v.data)

theorem walkFrom_length (f : List (Joint M X)) : ∀ path anc i,
    (walkFrom path anc i f).length = (walk f).length := by
  induction f using forest_ind with
  | nil => intro path anc i; simp [walk, walkFrom_nil]
  | null js ih =>
    intro path anc i
    rw [walk, walkFrom_null, walkFrom_null, ih, ih]
  | own a d t js iht ihj =>
    intro path anc i
    rw [walk, walkFrom_own, walkFrom_own]
    simp only [List.length_cons, List.length_append, iht, ihj]

theorem walk_length_own (a : Nat) (d : Data M X) (t js : List (Joint M X)) :
    (walk (.own a d t :: js)).length = 1 + (walk t).length + (walk js).length := by
  rw [walk, walkFrom_own]
  simp only [List.length_cons, List.length_append, walkFrom_length]
  omega

theorem make_spec (mk : Nat → Made M X) (a : Nat → Nat) (e : Nat → Data M X) (m : Nat)
    (good : ∀ k < m, mk k = .joint (.own (a k) (e k) []) false) (f : List (Joint M X)) (hf : NoNull f) :
    ∀ (k : Nat) (subs : List (Joint M X)), k ≤ m → (m < k + (walk f).length → (mk m).Stops) →
      ∃ f', copySubs mk subs f k = .ok ⟨subs ++ f', if m < k + (walk f).length then m + 1 else k + (walk f).length,
          decide (m < k + (walk f).length)⟩ ∧ NoNull f' ∧ ∀ path anc i,
        (walkFrom path anc i f').map Visit.key = ((walkFrom path anc i f).map Visit.key).take (m - k) ∧
        (walkFrom path anc i f').map Visit.addr = (List.range' k (min (walk f).length (m - k))).map a := by
  induction f using forest_ind with
  | nil =>
    intro k subs hk _
    refine ⟨[], ?_, noNull_nil, fun path anc i => by simp [walk, walkFrom_nil]⟩
    have h : ¬ m < k := by omega
    simp [copySubs, walk, walkFrom_nil, h]
  | null js ih => exact absurd hf (noNull_null js)
  | own a₀ d t js iht ihj =>
    intro k subs hk hs
    obtain ⟨h1, h2⟩ := (noNull_cons a₀ d t js).1 hf
    rw [walk_length_own] at hs ⊢
    rcases Nat.eq_or_lt_of_le hk with rfl | hlt
    · have hlt : k < k + (1 + (walk t).length + (walk js).length) := by omega
      refine ⟨[], ?_, noNull_nil, fun path anc i => by simp [walkFrom_nil]⟩
      have hs := hs hlt
      rw [if_pos hlt, decide_eq_true hlt, List.append_nil]
      rcases h : mk k with _ | ⟨_ | ⟨x, y, z⟩, _ | _⟩
      · simp only [copySubs, h]
      all_goals first | (simp only [copySubs, h]; done) | (rw [h] at hs; exact absurd hs (by simp [Made.Stops]))
    · obtain ⟨t', e1, n1, w1⟩ := iht h1 (k + 1) [] hlt (fun h => hs (by omega))
      by_cases ht : m < k + 1 + (walk t).length
      · have hlt' : m < k + (1 + (walk t).length + (walk js).length) := by omega
        refine ⟨[.own (a k) d t'], ?_, (noNull_cons _ _ _ _).2 ⟨n1, noNull_nil⟩, fun path anc i => ?_⟩
        · simp only [copySubs, good k hlt, copyInto, e1, Res.bind_ok, if_pos ht, decide_eq_true ht, if_true,
            if_pos hlt', decide_eq_true hlt', List.nil_append]
        · obtain ⟨a1, a2⟩ := w1 (path ++ [i]) (anc ++ [d]) 0
          have hm : m - k = (m - (k + 1)) + 1 := by omega
          have hl : m - (k + 1) ≤ ((walkFrom (path ++ [i]) (anc ++ [d]) 0 t).map Visit.key).length := by
            rw [List.length_map, walkFrom_length]; omega
          rw [walkFrom_own, walkFrom_own, walkFrom_nil]
          constructor
          · simp only [List.map_cons, List.append_nil, List.map_append, a1, hm, List.take_succ_cons,
              List.take_append_of_le_length hl]
            rfl
          · simp only [List.map_cons, List.append_nil, a2]
            have : min (1 + (walk t).length + (walk js).length) (m - k) = min (walk t).length (m - (k + 1)) + 1 := by
              omega
            rw [this, List.range'_succ, List.map_cons]
      · obtain ⟨js', e2, n2, w2⟩ := ihj h2 (k + 1 + (walk t).length) (subs ++ [.own (a k) d t']) (by omega)
          (fun h => hs (by omega))
        refine ⟨.own (a k) d t' :: js', ?_, (noNull_cons _ _ _ _).2 ⟨n1, n2⟩, fun path anc i => ?_⟩
        · have ha : k + 1 + (walk t).length + (walk js).length = k + (1 + (walk t).length + (walk js).length) := by omega
          simp only [copySubs, good k hlt, copyInto, e1, Res.bind_ok, if_neg ht, decide_eq_false ht, List.nil_append,
            Bool.false_eq_true, if_false, e2, List.append_assoc, List.cons_append, ha]
        · obtain ⟨a1, a2⟩ := w1 (path ++ [i]) (anc ++ [d]) 0
          obtain ⟨b1, b2⟩ := w2 path anc (i + 1)
          have hm : m - k = (m - (k + 1)) + 1 := by omega
          have hl : ((walkFrom (path ++ [i]) (anc ++ [d]) 0 t).map Visit.key).length ≤ m - (k + 1) := by
            rw [List.length_map, walkFrom_length]; omega
          rw [walkFrom_own, walkFrom_own]
          constructor
          · rw [List.take_of_length_le hl] at a1
            simp only [List.map_cons, List.map_append, a1, b1, hm, List.take_succ_cons, List.take_append,
              List.take_of_length_le hl, List.length_map, walkFrom_length]
            have : m - (k + 1 + (walk t).length) = m - (k + 1) - (walk t).length := by omega
            rw [this]
            rfl
          · simp only [List.map_cons, List.map_append, a2, b2]
            have h3 : min (walk t).length (m - (k + 1)) = (walk t).length := by omega
            have h4 : min (1 + (walk t).length + (walk js).length) (m - k) =
              (walk t).length + min (walk js).length (m - (k + 1 + (walk t).length)) + 1 := by omega
            rw [h3, h4, List.range'_succ, List.map_cons, ← List.range'_append_1, List.map_append]

/-- A null pointer is used. -/
theorem make_null (mk : Nat → Made M X) (a : Nat → Nat) (e : Nat → Data M X) (m : Nat) (b : Bool)
    (good : ∀ k < m, mk k = .joint (.own (a k) (e k) []) false) (hm : mk m = .joint .null b)
    (f : List (Joint M X)) (hf : NoNull f) :
    ∀ (k : Nat) (subs : List (Joint M X)), k ≤ m → m < k + (walk f).length → copySubs mk subs f k = .ub := by
  induction f using forest_ind with
  | nil =>
    intro k subs hk h
    simp [walk, walkFrom_nil] at h
    omega
  | null js ih => exact absurd hf (noNull_null js)
  | own a₀ d t js iht ihj =>
    intro k subs hk hs
    obtain ⟨h1, h2⟩ := (noNull_cons a₀ d t js).1 hf
    rw [walk_length_own] at hs
    rcases Nat.eq_or_lt_of_le hk with rfl | hlt
    · simp only [copySubs, hm]
    · by_cases ht : m < k + 1 + (walk t).length
      · simp only [copySubs, good k hlt, copyInto, iht h1 (k + 1) [] hlt ht, Res.bind]
      · obtain ⟨t', e1, -, -⟩ := make_spec mk a e m good t h1 (k + 1) [] hlt (fun h => absurd h ht)
        simp only [copySubs, good k hlt, copyInto, e1, Res.bind_ok, if_neg ht, decide_eq_false ht,
            Bool.false_eq_true, if_false]
        exact ihj h2 _ _ (by omega) (by omega)

end Geom.Skeleton
