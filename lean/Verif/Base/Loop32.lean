import Verif.Base.Res
import Mathlib.Tactic.Ring
import Mathlib.Tactic.Linarith

/-
  Loops with a 32-bit counter: `for (std::uint32_t i = lo; i <= hi; ++i)`.
-/
set_option autoImplicit false

namespace Geom

/-- Unsigned 32-bit arithmetic. -/
def w32 (x : ℕ) : ℕ := x % 2 ^ 32

theorem w32_le (x : ℕ) : w32 x ≤ x := Nat.mod_le _ _
theorem w32_of_lt {x : ℕ} (h : x < 2 ^ 32) : w32 x = x := Nat.mod_eq_of_lt h

/-- More iterations than a 32-bit counter has values: a loop that runs so often runs for ever. -/
def fuel32 : ℕ := 2 ^ 32 + 1

/-- A loop with a 32-bit counter; `Res.fuel` means that it does not end. -/
def loop32 {S : Type} (body : ℕ → S → Res S) (cont : ℕ → Bool) : ℕ → ℕ → S → Res S
  | 0, _, _ => .fuel
  | k + 1, i, s => if cont i then (body i s).bind (loop32 body cont k (w32 (i + 1))) else .ok s

/-- `for (std::uint32_t i = lo; i <= hi; ++i)`. -/
def forLe {S : Type} (lo hi : ℕ) (body : ℕ → S → Res S) (s : S) : Res S :=
  loop32 body (fun i => decide (i ≤ hi)) fuel32 lo s

/-- `for (std::uint32_t i = lo; i < hi; ++i)`. -/
def forLt {S : Type} (lo hi : ℕ) (body : ℕ → S → Res S) (s : S) : Res S :=
  loop32 body (fun i => decide (i < hi)) fuel32 lo s

variable {S : Type}

theorem loop32_ok (body : ℕ → S → Res S) (cont : ℕ → Bool) (st : ℕ → S) (n : ℕ) (hn : n < 2 ^ 32) (hc : cont n = false) :
    ∀ (d fuel lo : ℕ), lo + d = n → d < fuel → (∀ i, lo ≤ i → i < n → cont i = true ∧ body i (st i) = .ok (st (i + 1))) →
      loop32 body cont fuel lo (st lo) = .ok (st n) := by
  intro d
  induction d with
  | zero =>
    intro fuel lo h hf _
    obtain ⟨k, rfl⟩ := Nat.exists_eq_succ_of_ne_zero (Nat.pos_iff_ne_zero.1 hf)
    simp only [Nat.add_zero] at h
    subst h
    simp [loop32, hc]
  | succ d ih =>
    intro fuel lo h hf hb
    obtain ⟨k, rfl⟩ := Nat.exists_eq_succ_of_ne_zero (show fuel ≠ 0 by omega)
    obtain ⟨h1, h2⟩ := hb lo (le_refl _) (by omega)
    simp only [loop32]
    rw [if_pos h1, h2]
    simp only [Res.bind]
    rw [w32_of_lt (by omega)]
    exact ih k (lo + 1) (by omega) (by omega) (fun i hi hi' => hb i (by omega) hi')

/-- A loop with inclusive bound below the largest number: `st i` is the state before the iteration `i`. -/
theorem forLe_ok (lo hi : ℕ) (body : ℕ → S → Res S) (st : ℕ → S) (h1 : lo ≤ hi + 1) (h2 : hi + 1 < 2 ^ 32)
    (hb : ∀ i, lo ≤ i → i ≤ hi → body i (st i) = .ok (st (i + 1))) : forLe lo hi body (st lo) = .ok (st (hi + 1)) := by
  refine loop32_ok body _ st (hi + 1) h2 (by simp) (hi + 1 - lo) fuel32 lo (by omega) (by unfold fuel32; omega) fun i hi1 hi2 => ?_
  exact ⟨decide_eq_true (by omega), hb i hi1 (by omega)⟩

/-- A loop with exclusive bound. -/
theorem forLt_ok (lo hi : ℕ) (body : ℕ → S → Res S) (st : ℕ → S) (h1 : lo ≤ hi) (h2 : hi < 2 ^ 32)
    (hb : ∀ i, lo ≤ i → i < hi → body i (st i) = .ok (st (i + 1))) : forLt lo hi body (st lo) = .ok (st hi) := by
  refine loop32_ok body _ st hi h2 (by simp) (hi - lo) fuel32 lo (by omega) (by unfold fuel32; omega) fun i hi1 hi2 => ?_
  exact ⟨decide_eq_true (by omega), hb i hi1 (by omega)⟩

/-- A loop with the largest number as inclusive bound does not end, whatever number of iterations one waits. -/
theorem loop32_diverges (body : ℕ → S → Res S) (hb : ∀ i s, ∃ s', body i s = .ok s') :
    ∀ fuel i s, i < 2 ^ 32 → loop32 body (fun i => decide (i ≤ 2 ^ 32 - 1)) fuel i s = .fuel := by
  intro fuel
  induction fuel with
  | zero => intros; rfl
  | succ k ih =>
    intro i s hi
    obtain ⟨s', hs⟩ := hb i s
    simp only [loop32]
    rw [if_pos (decide_eq_true (by omega)), hs]
    exact ih _ _ (Nat.mod_lt _ (by norm_num))

theorem forLe_diverges (lo : ℕ) (body : ℕ → S → Res S) (s : S) (hl : lo < 2 ^ 32) (hb : ∀ i s, ∃ s', body i s = .ok s') :
    forLe lo (2 ^ 32 - 1) body s = .fuel := loop32_diverges body hb fuel32 lo s hl

/-- If the body of the first iteration does not end, the loop does not. -/
theorem forLe_fuel (lo hi : ℕ) (body : ℕ → S → Res S) (s : S) (h : lo ≤ hi) (hb : body lo s = .fuel) :
    forLe lo hi body s = .fuel := by
  unfold forLe fuel32 loop32
  rw [if_pos (decide_eq_true h), hb]
  rfl

end Geom
