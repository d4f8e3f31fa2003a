import Verif.Spec.Keyframe
import Verif.Base.Tac

set_option linter.unusedSectionVars false
set_option autoImplicit false

namespace Geom.Keyframe

variable {V K : Type} [Field K]

/-! ## The loop is safe for each list -/

theorem keyAt_ok (c : Chan V K) (kfs : List (KF V)) (frame frm til : Nat)
    (hf : frm < kfs.length) (ht : til ≤ kfs.length) : ∃ k, keyAt c kfs frame frm til = .ok k := by
  simp only [keyAt, List.getElem?_eq_getElem hf]
  by_cases hc : frame = kfs[frm].frame ∨ frm = til ∨ til = kfs.length
  · exact ⟨_, if_pos hc⟩
  · rw [if_neg hc]
    push Not at hc
    rw [List.getElem?_eq_getElem (show til < kfs.length by omega)]
    exact ⟨_, rfl⟩

theorem reaches_lt {kfs : List (KF V)} {til frame : Nat} (h : reaches kfs til frame = true) :
    ∃ h : til < kfs.length, frame = kfs[til].frame := by
  unfold reaches at h
  by_cases hlt : til < kfs.length
  · rw [List.getElem?_eq_getElem hlt] at h
    exact ⟨hlt, by simpa using h⟩
  · rw [List.getElem?_eq_none (not_lt.1 hlt)] at h
    simp at h

theorem reaches_iff {kfs : List (KF V)} {til frame : Nat} :
    reaches kfs til frame = true ↔ ∃ h : til < kfs.length, frame = kfs[til].frame := by
  refine ⟨reaches_lt, ?_⟩
  rintro ⟨h, e⟩
  simp [reaches, List.getElem?_eq_getElem h, e]

theorem buildLoop_ok (c : Chan V K) (kfs : List (KF V)) : ∀ (n frame frm til : Nat),
    frm < kfs.length → til ≤ kfs.length →
    ∃ ks, buildLoop c kfs n frame frm til = .ok ks ∧ ks.length = n := by
  intro n
  induction n with
  | zero => intro frame frm til _ _; exact ⟨[], rfl, rfl⟩
  | succ n ih =>
    intro frame frm til hf ht
    by_cases hr : reaches kfs til frame = true
    · obtain ⟨h, -⟩ := reaches_lt hr
      obtain ⟨k, hk⟩ := keyAt_ok c kfs frame til (til + 1) h h
      obtain ⟨ks, hks, hlen⟩ := ih (frame + 1) til (til + 1) h h
      exact ⟨k :: ks, by simp only [buildLoop, hr, if_true, hk, Res.bind_ok, hks], by simp [hlen]⟩
    · obtain ⟨k, hk⟩ := keyAt_ok c kfs frame frm til hf ht
      obtain ⟨ks, hks, hlen⟩ := ih (frame + 1) frm til hf ht
      exact ⟨k :: ks, by simp only [buildLoop, hr, if_false, hk, Res.bind_ok, hks, Bool.false_eq_true],
        by simp [hlen]⟩

theorem resize_length (l : List V) (n : Nat) (v : V) : (resize l n v).length = n := by
  simp [resize]; omega

theorem buildInterpolatedKeys_ok (c : Chan V K) (old : List V) (kfs : List (KF V)) (n : Nat) :
    ∃ ks, buildInterpolatedKeys c old kfs n = .ok ks ∧ ks.length = n := by
  unfold buildInterpolatedKeys
  split_ifs with h
  · exact ⟨_, rfl, resize_length _ _ _⟩
  · have : 0 < kfs.length := by
      cases kfs with
      | nil => simp at h
      | cons => simp
    exact buildLoop_ok c kfs n 0 0 0 this (Nat.zero_le _)

/-! ## Value of the loop for strictly sorted lists -/

/-- `til` counts the keyframes before `frame`, `frm` is the last of them (or the first keyframe). -/
def LoopInv (kfs : List (KF V)) (frame frm til : Nat) : Prop :=
  til ≤ kfs.length ∧ frm = til - 1 ∧ ∀ i (h : i < kfs.length), i < til ↔ kfs[i].frame < frame

theorem sorted_get {kfs : List (KF V)} (hs : kfs.Pairwise fun a b => a.frame < b.frame) {i j : Nat}
    (hij : i < j) (hj : j < kfs.length) : (kfs[i]'(hij.trans hj)).frame < kfs[j].frame :=
  List.pairwise_iff_getElem.1 hs i j (hij.trans hj) hj hij

theorem sorted_le {kfs : List (KF V)} (hs : kfs.Pairwise fun a b => a.frame < b.frame) {i j : Nat}
    (hij : i ≤ j) (hj : j < kfs.length) : (kfs[i]'(hij.trans_lt hj)).frame ≤ kfs[j].frame := by
  rcases Nat.lt_or_eq_of_le hij with h | h
  · exact (sorted_get hs h hj).le
  · subst h; exact le_rfl

theorem buildLoop_value (c : Chan V K) (kfs : List (KF V)) (hne : kfs ≠ [])
    (hs : kfs.Pairwise fun a b => a.frame < b.frame) : ∀ (n frame frm til : Nat),
    LoopInv kfs frame frm til → ∃ ks, buildLoop c kfs n frame frm til = .ok ks ∧ ks.length = n ∧
      ∀ i v, ks[i]? = some v → Value c.mix kfs (frame + i) v := by
  have hpos : 0 < kfs.length := List.length_pos_iff.2 hne
  intro n
  induction n with
  | zero => intro frame frm til _; exact ⟨[], rfl, rfl, by simp⟩
  | succ n ih =>
    intro frame frm til hinv
    obtain ⟨i1, i2, i3⟩ := hinv
    -- the case without a keyframe at `frame`
    by_cases hk : ∃ h : til < kfs.length, frame = kfs[til].frame
    · obtain ⟨h, hfr⟩ := hk
      have inv' : LoopInv kfs (frame + 1) til (til + 1) := by
        refine ⟨h, by omega, fun i hi => ?_⟩
        constructor
        · intro hlt
          have := sorted_le hs (show i ≤ til by omega) h
          omega
        · intro hlt
          by_contra hc
          have := sorted_get hs (show til < i by omega) hi
          omega
      obtain ⟨ks, hks, hlen, hv⟩ := ih _ _ _ inv'
      refine ⟨kfs[til].key :: ks, ?_, by simp [hlen], ?_⟩
      · have hr : reaches kfs til frame = true := reaches_iff.2 ⟨h, hfr⟩
        simp only [buildLoop, hr, if_true]
        have : keyAt c kfs frame til (til + 1) = .ok kfs[til].key := by
          simp only [keyAt, List.getElem?_eq_getElem h]
          rw [if_pos (Or.inl hfr)]
        rw [this, Res.bind_ok, hks, Res.bind_ok]
      · intro i v hiv
        cases i with
        | zero =>
          simp only [List.getElem?_cons_zero, Option.some.injEq] at hiv
          subst hiv
          exact Value.key _ (List.getElem_mem h) hfr.symm
        | succ i =>
          simp only [List.getElem?_cons_succ] at hiv
          have := hv i v hiv
          rwa [show frame + 1 + i = frame + (i + 1) by omega] at this
    · have hnext : reaches kfs til frame = false := by
        rw [Bool.eq_false_iff, Ne, reaches_iff]; exact hk
      have hgt : ∀ h : til < kfs.length, frame < kfs[til].frame := by
        intro h
        have h1 : ¬ kfs[til].frame < frame := fun hc => absurd ((i3 til h).2 hc) (lt_irrefl _)
        have h2 : frame ≠ kfs[til].frame := fun e => hk ⟨h, e⟩
        omega
      have inv' : LoopInv kfs (frame + 1) frm til := by
        refine ⟨i1, i2, fun i hi => ?_⟩
        constructor
        · intro hlt
          have := (i3 i hi).1 hlt
          omega
        · intro hlt
          by_contra hc
          have h1 : til < kfs.length := by omega
          have := sorted_le hs (show til ≤ i by omega) hi
          have := hgt h1
          omega
      obtain ⟨ks, hks, hlen, hv⟩ := ih _ _ _ inv'
      have hfrm : frm < kfs.length := by omega
      -- the key at `frame`
      have hkey : ∃ k, keyAt c kfs frame frm til = .ok k ∧ Value c.mix kfs frame k := by
        simp only [keyAt, List.getElem?_eq_getElem hfrm]
        by_cases h0 : til = 0
        · -- before the first keyframe
          have hf0 : frm = 0 := by omega
          refine ⟨kfs[frm].key, ?_, ?_⟩
          · rw [if_pos (Or.inr (Or.inl (by omega)))]
          · refine Value.before _ (List.getElem_mem hfrm) ?_ ?_
            · have := hgt (by omega)
              have := sorted_le hs (show til ≤ frm by omega) hfrm
              omega
            · intro k hkm
              obtain ⟨j, hj, rfl⟩ := List.getElem_of_mem hkm
              exact sorted_le hs (by omega) hj
        · have hlt : kfs[frm].frame < frame := (i3 frm hfrm).1 (by omega)
          by_cases hl : til = kfs.length
          · refine ⟨kfs[frm].key, ?_, ?_⟩
            · rw [if_pos (Or.inr (Or.inr hl))]
            · refine Value.after _ (List.getElem_mem hfrm) hlt ?_
              intro k hkm
              obtain ⟨j, hj, rfl⟩ := List.getElem_of_mem hkm
              exact sorted_le hs (by omega) hfrm
          · have ht : til < kfs.length := by omega
            have hg := hgt ht
            refine ⟨mixKeys c kfs[frm] kfs[til] frame, ?_, ?_⟩
            · rw [if_neg (by push Not; exact ⟨by omega, by omega, hl⟩),
                List.getElem?_eq_getElem ht]
            · have hd : ¬ (kfs[til].frame - kfs[frm].frame = 0) := by omega
              rw [mixKeys, if_neg hd]
              refine Value.between _ _ (List.getElem_mem hfrm) (List.getElem_mem ht) hlt hg ?_
              intro k hkm
              obtain ⟨j, hj, rfl⟩ := List.getElem_of_mem hkm
              rcases Nat.lt_or_ge j til with h | h
              · left; exact sorted_le hs (by omega) hfrm
              · right; exact sorted_le hs h hj
      obtain ⟨k, hk1, hk2⟩ := hkey
      refine ⟨k :: ks, ?_, by simp [hlen], ?_⟩
      · simp only [buildLoop, hnext]
        simp only [Bool.false_eq_true, if_false]
        rw [hk1, Res.bind_ok, hks, Res.bind_ok]
      · intro i v hiv
        cases i with
        | zero =>
          simp only [List.getElem?_cons_zero, Option.some.injEq] at hiv
          subst hiv
          exact hk2
        | succ i =>
          simp only [List.getElem?_cons_succ] at hiv
          have := hv i v hiv
          rwa [show frame + 1 + i = frame + (i + 1) by omega] at this

theorem loopInv_zero {kfs : List (KF V)} : LoopInv kfs 0 0 0 :=
  ⟨Nat.zero_le _, rfl, by simp⟩

/-! ## Sorting -/

theorem Value.perm {mix : V → V → K → V} {l l' : List (KF V)} (h : l.Perm l') {f : Nat} {v : V}
    (hv : Value mix l f v) : Value mix l' f v := by
  cases hv with
  | key a ha e => exact .key a (h.mem_iff.1 ha) e
  | between a b ha hb h1 h2 hn =>
    exact .between a b (h.mem_iff.1 ha) (h.mem_iff.1 hb) h1 h2 fun k hk => hn k (h.mem_iff.2 hk)
  | before a ha e hn => exact .before a (h.mem_iff.1 ha) e fun k hk => hn k (h.mem_iff.2 hk)
  | after a ha e hn => exact .after a (h.mem_iff.1 ha) e fun k hk => hn k (h.mem_iff.2 hk)

theorem strict_of_sort {sort : List (KF V) → List (KF V)} (hs : IsSort sort) {l : List (KF V)}
    (hd : Distinct l) : (sort l).Pairwise fun a b => a.frame < b.frame := by
  obtain ⟨h1, h2⟩ := hs l
  have h3 : Distinct (sort l) := by
    unfold Distinct at hd ⊢
    exact (h1.pairwise_iff (fun h => h.symm)).2 hd
  exact (h2.and h3).imp fun h => lt_of_le_of_ne h.1 h.2

theorem sort_ne_nil {sort : List (KF V) → List (KF V)} (hs : IsSort sort) {l : List (KF V)} :
    sort l = [] ↔ l = [] := by
  constructor
  · intro h
    have := (hs l).1
    rw [h] at this
    exact this.symm.eq_nil
  · rintro rfl
    exact (hs []).1.eq_nil

/-! ## Frame bounds -/

theorem frameBounds_spec {b : Nat × Nat} {kfs : List (KF V)}
    (hs : kfs.Pairwise fun a b => a.frame ≤ b.frame) (hw : ∀ k ∈ kfs, k.frame + 1 < W) :
    (∀ x, x ≤ (frameBounds b kfs).1 ↔ x ≤ b.1 ∧ ∀ k ∈ kfs, x ≤ k.frame) ∧
    (∀ x, (frameBounds b kfs).2 ≤ x ↔ b.2 ≤ x ∧ ∀ k ∈ kfs, k.frame + 1 ≤ x) := by
  cases kfs with
  | nil => simp [frameBounds]
  | cons a l =>
    have hla : (a :: l).getLast? = some ((a :: l).getLast (by simp)) := List.getLast?_eq_getLast_of_ne_nil (by simp)
    have hmem := List.getLast_mem (l := a :: l) (by simp)
    simp only [frameBounds, List.head?_cons, hla]
    rw [Nat.mod_eq_of_lt (hw _ hmem)]
    have h1 : ∀ k ∈ a :: l, a.frame ≤ k.frame := by
      intro k hk
      rcases List.mem_cons.1 hk with rfl | hk
      · exact le_rfl
      · exact List.rel_of_pairwise_cons hs hk
    have h2 : ∀ k ∈ a :: l, k.frame ≤ ((a :: l).getLast (by simp)).frame := by
      intro k hk
      obtain ⟨i, hi, rfl⟩ := List.getElem_of_mem hk
      rw [List.getLast_eq_getElem]
      rcases Nat.lt_or_eq_of_le (Nat.le_sub_one_of_lt hi) with h | h
      · exact List.pairwise_iff_getElem.1 hs _ _ _ _ h
      · simp only [h]; exact le_rfl
    constructor
    · intro x
      rw [le_min_iff]
      refine and_congr_right fun _ => ⟨fun h k hk => h.trans (h1 k hk), fun h => h a (by simp)⟩
    · intro x
      rw [max_le_iff]
      refine and_congr_right fun _ =>
        ⟨fun h k hk => (Nat.add_le_add_right (h2 k hk) 1).trans h, fun h => h _ hmem⟩

end Geom.Keyframe
