import Verif.Props.ClipMeshFloat

/-
  C113: cracks between clipped triangles in floating-point arithmetic, and vertices outside of the bounding box.
-/
set_option autoImplicit false
set_option linter.unusedSectionVars false
set_option linter.unusedSimpArgs false

namespace Geom.TMesh
open Spec
open Geom.Float
open Plane (Eqn Pl Relation)
open Plane.Spec (side)
open Clip (Poly)
open Triangle.Props (near_eq)

variable {fl : ℚ → ℚ}

/-- A closed tetrahedron. -/
def crackFloat : Mesh ℚ := ⟨[⟨⟨7, 0, 1⟩, 0, 0⟩, ⟨⟨7, 1, 11⟩, 0, 0⟩, ⟨⟨6, 0, 33⟩, 0, 0⟩, ⟨⟨7, 0, -11⟩, 0, 0⟩], [⟨0, 1, 2⟩, ⟨0, 2, 3⟩, ⟨0, 3, 1⟩, ⟨1, 3, 2⟩]⟩

/-- The part of the tetrahedron in front of the plane z = 0, computed with `float`. -/
def crackFloatFront : Mesh ℚ :=
    ⟨[⟨⟨7, 0, 1⟩, 0, 0⟩,
      ⟨⟨7, 1, 11⟩, 0, 0⟩,
      ⟨⟨6, 0, 33⟩, 0, 0⟩,
      ⟨⟨7, 0, 1⟩, 0, 0⟩,
      ⟨⟨6, 0, 33⟩, 0, 0⟩,
      ⟨⟨27 / 4, 0, 0⟩, 0, 0⟩,
      ⟨⟨7, 0, 1 / 4194304⟩, 0, 0⟩,
      ⟨⟨7, 0, 1⟩, 0, 0⟩,
      ⟨⟨14680065 / 2097152, 0, 0⟩, 0, 0⟩,
      ⟨⟨7, 1 / 2, 0⟩, 0, 0⟩,
      ⟨⟨7, 1, 11⟩, 0, 0⟩,
      ⟨⟨7, 1, 11⟩, 0, 0⟩,
      ⟨⟨7, 1 / 2, 0⟩, 0, 0⟩,
      ⟨⟨27 / 4, 0, 0⟩, 0, 0⟩,
      ⟨⟨6, 0, 33⟩, 0, 0⟩],
      [⟨0, 1, 2⟩, ⟨3, 4, 5⟩, ⟨3, 5, 6⟩, ⟨7, 8, 9⟩, ⟨7, 9, 10⟩, ⟨11, 12, 13⟩, ⟨11, 13, 14⟩]⟩

/-- The part of the tetrahedron behind the plane. -/
def crackFloatBack : Mesh ℚ :=
    ⟨[⟨⟨27 / 4, 0, 0⟩, 0, 0⟩,
      ⟨⟨7, 0, -11⟩, 0, 0⟩,
      ⟨⟨7, 0, 1 / 4194304⟩, 0, 0⟩,
      ⟨⟨14680065 / 2097152, 0, 0⟩, 0, 0⟩,
      ⟨⟨7, 0, -11⟩, 0, 0⟩,
      ⟨⟨7, 1 / 2, 0⟩, 0, 0⟩,
      ⟨⟨7, 1 / 2, 0⟩, 0, 0⟩,
      ⟨⟨7, 0, -11⟩, 0, 0⟩,
      ⟨⟨27 / 4, 0, 0⟩, 0, 0⟩],
      [⟨0, 1, 2⟩, ⟨3, 4, 5⟩, ⟨6, 7, 8⟩]⟩

theorem crack_float (hf : IsNearest 24 (-149) fl) {eps : ℚ} (h0 : 0 ≤ eps) (h1 : eps < 1) (nz : ℕ → ℕ → Bool) (eq : Eqn) (front back : Mesh ℚ) :
    clipMeshFl fl nz eq ⟨⟨0, 0, 1⟩, 0⟩ eps crackFloat front back = .ok (crackFloatFront, crackFloatBack) := by
  have fx : ∀ (m e : ℤ), -149 ≤ e → |m| < 2 ^ 24 → fl (m * 2 ^ e) = m * 2 ^ e := fun m e h1 h2 => hf.fix _ ⟨m, e, h2, h1, rfl⟩
  have r0 := fx (-44) (0) (by norm_num) (by norm_num)
  have r1 := fx (-22) (0) (by norm_num) (by norm_num)
  have r2 := fx (-12) (0) (by norm_num) (by norm_num)
  have r3 := fx (-11) (0) (by norm_num) (by norm_num)
  have r4 := fx (-10) (0) (by norm_num) (by norm_num)
  have r5 := fx (-33) (-2) (by norm_num) (by norm_num)
  have r6 := fx (-11) (-1) (by norm_num) (by norm_num)
  have r7 := fx (-1) (0) (by norm_num) (by norm_num)
  have r8 : fl (-123032921 / 134217728) = _ := near_eq hf (by norm_num) (k := -15379115) (e := -24) (by norm_num) (by norm_num) (by norm_num) (by norm_num [abs_lt])
  have r9 := fx (-15379111) (-24) (by norm_num) (by norm_num)
  have r10 := fx (-1) (-5) (by norm_num) (by norm_num)
  have r11 := fx (0) (0) (by norm_num) (by norm_num)
  have r12 := fx (1) (-22) (by norm_num) (by norm_num)
  have r13 := fx (1398101) (-24) (by norm_num) (by norm_num)
  have r14 : fl (1 / 12) = _ := near_eq hf (by norm_num) (k := 11184811) (e := -27) (by norm_num) (by norm_num) (by norm_num) (by norm_num [abs_lt])
  have r15 := fx (1) (-2) (by norm_num) (by norm_num)
  have r16 := fx (1) (-1) (by norm_num) (by norm_num)
  have r17 := fx (9786707) (-24) (by norm_num) (by norm_num)
  have r18 : fl (78293677 / 134217728) = _ := near_eq hf (by norm_num) (k := 9786710) (e := -24) (by norm_num) (by norm_num) (by norm_num) (by norm_num [abs_lt])
  have r19 := fx (3) (-2) (by norm_num) (by norm_num)
  have r20 : fl (123032917 / 134217728) = _ := near_eq hf (by norm_num) (k := 15379115) (e := -24) (by norm_num) (by norm_num) (by norm_num) (by norm_num [abs_lt])
  have r21 : fl (11 / 12) = _ := near_eq hf (by norm_num) (k := 15379115) (e := -24) (by norm_num) (by norm_num) (by norm_num) (by norm_num [abs_lt])
  have r22 := fx (15379115) (-24) (by norm_num) (by norm_num)
  have r23 := fx (1) (0) (by norm_num) (by norm_num)
  have r24 : fl (11 / 10) = _ := near_eq hf (by norm_num) (k := 9227469) (e := -23) (by norm_num) (by norm_num) (by norm_num) (by norm_num [abs_lt])
  have r25 := fx (3) (-1) (by norm_num) (by norm_num)
  have r26 := fx (7) (-1) (by norm_num) (by norm_num)
  have r27 := fx (21) (-2) (by norm_num) (by norm_num)
  have r28 := fx (11) (-1) (by norm_num) (by norm_num)
  have r29 := fx (6) (0) (by norm_num) (by norm_num)
  have r30 : fl (107653805 / 16777216) = _ := near_eq hf (by norm_num) (k := 13456726) (e := -21) (by norm_num) (by norm_num) (by norm_num) (by norm_num [abs_lt])
  have r31 := fx (6728363) (-20) (by norm_num) (by norm_num)
  have r32 := fx (27) (-2) (by norm_num) (by norm_num)
  have r33 := fx (7) (0) (by norm_num) (by norm_num)
  have r34 : fl (117440515 / 16777216) = _ := near_eq hf (by norm_num) (k := 14680064) (e := -21) (by norm_num) (by norm_num) (by norm_num) (by norm_num [abs_lt])
  have r35 : fl (58720259 / 8388608) = _ := near_eq hf (by norm_num) (k := 14680065) (e := -21) (by norm_num) (by norm_num) (by norm_num) (by norm_num [abs_lt])
  have r36 := fx (14680065) (-21) (by norm_num) (by norm_num)
  have r37 := fx (33) (-2) (by norm_num) (by norm_num)
  have r38 := fx (11) (0) (by norm_num) (by norm_num)
  have r39 := fx (12) (0) (by norm_num) (by norm_num)
  have r40 := fx (22) (0) (by norm_num) (by norm_num)
  have r41 := fx (32) (0) (by norm_num) (by norm_num)
  have r42 := fx (33) (0) (by norm_num) (by norm_num)
  have r43 := fx (44) (0) (by norm_num) (by norm_num)
  norm_num at r0 r1 r2 r3 r4 r5 r6 r7 r8 r9 r10 r11 r12 r13 r14 r15 r16 r17 r18 r19 r20 r21 r22 r23 r24 r25 r26 r27 r28 r29 r30 r31 r32 r33 r34 r35 r36 r37 r38 r39 r40 r41 r42 r43
  have hd : (eq.distanceSign (0 : ℚ)) = 0 := by cases eq <;> simp [Eqn.distanceSign]
  have s0 : Clip.sgnDistanceFl fl eq ⟨⟨0, 0, 1⟩, 0⟩ ⟨7, 0, 1⟩ = 1 := by
    simp only [Clip.sgnDistanceFl, Clip.dotFl, hd]
    norm_num [r0, r1, r2, r3, r4, r5, r6, r7, r8, r9, r10, r11, r12, r13, r14, r15, r16, r17, r18, r19, r20, r21, r22, r23, r24, r25, r26, r27, r28, r29, r30, r31, r32, r33, r34, r35, r36, r37, r38, r39, r40, r41, r42, r43]
  have l0 : Clip.relationPointFl fl eq ⟨⟨0, 0, 1⟩, 0⟩ ⟨7, 0, 1⟩ eps = .inFrontOf := by
    simp only [Clip.relationPointFl, s0]
    rw [if_pos (by linarith)]
  have s1 : Clip.sgnDistanceFl fl eq ⟨⟨0, 0, 1⟩, 0⟩ ⟨7, 1, 11⟩ = 11 := by
    simp only [Clip.sgnDistanceFl, Clip.dotFl, hd]
    norm_num [r0, r1, r2, r3, r4, r5, r6, r7, r8, r9, r10, r11, r12, r13, r14, r15, r16, r17, r18, r19, r20, r21, r22, r23, r24, r25, r26, r27, r28, r29, r30, r31, r32, r33, r34, r35, r36, r37, r38, r39, r40, r41, r42, r43]
  have l1 : Clip.relationPointFl fl eq ⟨⟨0, 0, 1⟩, 0⟩ ⟨7, 1, 11⟩ eps = .inFrontOf := by
    simp only [Clip.relationPointFl, s1]
    rw [if_pos (by linarith)]
  have s2 : Clip.sgnDistanceFl fl eq ⟨⟨0, 0, 1⟩, 0⟩ ⟨6, 0, 33⟩ = 33 := by
    simp only [Clip.sgnDistanceFl, Clip.dotFl, hd]
    norm_num [r0, r1, r2, r3, r4, r5, r6, r7, r8, r9, r10, r11, r12, r13, r14, r15, r16, r17, r18, r19, r20, r21, r22, r23, r24, r25, r26, r27, r28, r29, r30, r31, r32, r33, r34, r35, r36, r37, r38, r39, r40, r41, r42, r43]
  have l2 : Clip.relationPointFl fl eq ⟨⟨0, 0, 1⟩, 0⟩ ⟨6, 0, 33⟩ eps = .inFrontOf := by
    simp only [Clip.relationPointFl, s2]
    rw [if_pos (by linarith)]
  have s3 : Clip.sgnDistanceFl fl eq ⟨⟨0, 0, 1⟩, 0⟩ ⟨7, 0, -11⟩ = -11 := by
    simp only [Clip.sgnDistanceFl, Clip.dotFl, hd]
    norm_num [r0, r1, r2, r3, r4, r5, r6, r7, r8, r9, r10, r11, r12, r13, r14, r15, r16, r17, r18, r19, r20, r21, r22, r23, r24, r25, r26, r27, r28, r29, r30, r31, r32, r33, r34, r35, r36, r37, r38, r39, r40, r41, r42, r43]
  have l3 : Clip.relationPointFl fl eq ⟨⟨0, 0, 1⟩, 0⟩ ⟨7, 0, -11⟩ eps = .behind := by
    simp only [Clip.relationPointFl, s3]
    rw [if_neg (by linarith), if_pos (by linarith)]
  have i02 : ∀ z, Clip.interpFl fl z eq ⟨⟨0, 0, 1⟩, 0⟩ ⟨7, 0, 1⟩ (Clip.subFl fl ⟨6, 0, 33⟩ ⟨7, 0, 1⟩) = .fin (-(1 / 32)) := by
    intro z
    have : Clip.dotFl fl ⟨0, 0, 1⟩ (Clip.subFl fl ⟨6, 0, 33⟩ ⟨7, 0, 1⟩) = 32 := by
      simp only [Clip.dotFl, Clip.subFl]
      norm_num [r0, r1, r2, r3, r4, r5, r6, r7, r8, r9, r10, r11, r12, r13, r14, r15, r16, r17, r18, r19, r20, r21, r22, r23, r24, r25, r26, r27, r28, r29, r30, r31, r32, r33, r34, r35, r36, r37, r38, r39, r40, r41, r42, r43]
    simp only [Clip.interpFl, this, s0]
    rw [Ext.div_ne (by norm_num)]
    simp only [Clip.roundExt]
    norm_num [r0, r1, r2, r3, r4, r5, r6, r7, r8, r9, r10, r11, r12, r13, r14, r15, r16, r17, r18, r19, r20, r21, r22, r23, r24, r25, r26, r27, r28, r29, r30, r31, r32, r33, r34, r35, r36, r37, r38, r39, r40, r41, r42, r43]
  have i23 : ∀ z, Clip.interpFl fl z eq ⟨⟨0, 0, 1⟩, 0⟩ ⟨6, 0, 33⟩ (Clip.subFl fl ⟨7, 0, -11⟩ ⟨6, 0, 33⟩) = .fin (3 / 4) := by
    intro z
    have : Clip.dotFl fl ⟨0, 0, 1⟩ (Clip.subFl fl ⟨7, 0, -11⟩ ⟨6, 0, 33⟩) = -44 := by
      simp only [Clip.dotFl, Clip.subFl]
      norm_num [r0, r1, r2, r3, r4, r5, r6, r7, r8, r9, r10, r11, r12, r13, r14, r15, r16, r17, r18, r19, r20, r21, r22, r23, r24, r25, r26, r27, r28, r29, r30, r31, r32, r33, r34, r35, r36, r37, r38, r39, r40, r41, r42, r43]
    simp only [Clip.interpFl, this, s2]
    rw [Ext.div_ne (by norm_num)]
    simp only [Clip.roundExt]
    norm_num [r0, r1, r2, r3, r4, r5, r6, r7, r8, r9, r10, r11, r12, r13, r14, r15, r16, r17, r18, r19, r20, r21, r22, r23, r24, r25, r26, r27, r28, r29, r30, r31, r32, r33, r34, r35, r36, r37, r38, r39, r40, r41, r42, r43]
  have i30 : ∀ z, Clip.interpFl fl z eq ⟨⟨0, 0, 1⟩, 0⟩ ⟨7, 0, -11⟩ (Clip.subFl fl ⟨7, 0, 1⟩ ⟨7, 0, -11⟩) = .fin (15379115 / 16777216) := by
    intro z
    have : Clip.dotFl fl ⟨0, 0, 1⟩ (Clip.subFl fl ⟨7, 0, 1⟩ ⟨7, 0, -11⟩) = 12 := by
      simp only [Clip.dotFl, Clip.subFl]
      norm_num [r0, r1, r2, r3, r4, r5, r6, r7, r8, r9, r10, r11, r12, r13, r14, r15, r16, r17, r18, r19, r20, r21, r22, r23, r24, r25, r26, r27, r28, r29, r30, r31, r32, r33, r34, r35, r36, r37, r38, r39, r40, r41, r42, r43]
    simp only [Clip.interpFl, this, s3]
    rw [Ext.div_ne (by norm_num)]
    simp only [Clip.roundExt]
    norm_num [r0, r1, r2, r3, r4, r5, r6, r7, r8, r9, r10, r11, r12, r13, r14, r15, r16, r17, r18, r19, r20, r21, r22, r23, r24, r25, r26, r27, r28, r29, r30, r31, r32, r33, r34, r35, r36, r37, r38, r39, r40, r41, r42, r43]
  have i03 : ∀ z, Clip.interpFl fl z eq ⟨⟨0, 0, 1⟩, 0⟩ ⟨7, 0, 1⟩ (Clip.subFl fl ⟨7, 0, -11⟩ ⟨7, 0, 1⟩) = .fin (11184811 / 134217728) := by
    intro z
    have : Clip.dotFl fl ⟨0, 0, 1⟩ (Clip.subFl fl ⟨7, 0, -11⟩ ⟨7, 0, 1⟩) = -12 := by
      simp only [Clip.dotFl, Clip.subFl]
      norm_num [r0, r1, r2, r3, r4, r5, r6, r7, r8, r9, r10, r11, r12, r13, r14, r15, r16, r17, r18, r19, r20, r21, r22, r23, r24, r25, r26, r27, r28, r29, r30, r31, r32, r33, r34, r35, r36, r37, r38, r39, r40, r41, r42, r43]
    simp only [Clip.interpFl, this, s0]
    rw [Ext.div_ne (by norm_num)]
    simp only [Clip.roundExt]
    norm_num [r0, r1, r2, r3, r4, r5, r6, r7, r8, r9, r10, r11, r12, r13, r14, r15, r16, r17, r18, r19, r20, r21, r22, r23, r24, r25, r26, r27, r28, r29, r30, r31, r32, r33, r34, r35, r36, r37, r38, r39, r40, r41, r42, r43]
  have i31 : ∀ z, Clip.interpFl fl z eq ⟨⟨0, 0, 1⟩, 0⟩ ⟨7, 0, -11⟩ (Clip.subFl fl ⟨7, 1, 11⟩ ⟨7, 0, -11⟩) = .fin (1 / 2) := by
    intro z
    have : Clip.dotFl fl ⟨0, 0, 1⟩ (Clip.subFl fl ⟨7, 1, 11⟩ ⟨7, 0, -11⟩) = 22 := by
      simp only [Clip.dotFl, Clip.subFl]
      norm_num [r0, r1, r2, r3, r4, r5, r6, r7, r8, r9, r10, r11, r12, r13, r14, r15, r16, r17, r18, r19, r20, r21, r22, r23, r24, r25, r26, r27, r28, r29, r30, r31, r32, r33, r34, r35, r36, r37, r38, r39, r40, r41, r42, r43]
    simp only [Clip.interpFl, this, s3]
    rw [Ext.div_ne (by norm_num)]
    simp only [Clip.roundExt]
    norm_num [r0, r1, r2, r3, r4, r5, r6, r7, r8, r9, r10, r11, r12, r13, r14, r15, r16, r17, r18, r19, r20, r21, r22, r23, r24, r25, r26, r27, r28, r29, r30, r31, r32, r33, r34, r35, r36, r37, r38, r39, r40, r41, r42, r43]
  have i10 : ∀ z, Clip.interpFl fl z eq ⟨⟨0, 0, 1⟩, 0⟩ ⟨7, 1, 11⟩ (Clip.subFl fl ⟨7, 0, 1⟩ ⟨7, 1, 11⟩) = .fin (9227469 / 8388608) := by
    intro z
    have : Clip.dotFl fl ⟨0, 0, 1⟩ (Clip.subFl fl ⟨7, 0, 1⟩ ⟨7, 1, 11⟩) = -10 := by
      simp only [Clip.dotFl, Clip.subFl]
      norm_num [r0, r1, r2, r3, r4, r5, r6, r7, r8, r9, r10, r11, r12, r13, r14, r15, r16, r17, r18, r19, r20, r21, r22, r23, r24, r25, r26, r27, r28, r29, r30, r31, r32, r33, r34, r35, r36, r37, r38, r39, r40, r41, r42, r43]
    simp only [Clip.interpFl, this, s1]
    rw [Ext.div_ne (by norm_num)]
    simp only [Clip.roundExt]
    norm_num [r0, r1, r2, r3, r4, r5, r6, r7, r8, r9, r10, r11, r12, r13, r14, r15, r16, r17, r18, r19, r20, r21, r22, r23, r24, r25, r26, r27, r28, r29, r30, r31, r32, r33, r34, r35, r36, r37, r38, r39, r40, r41, r42, r43]
  have i13 : ∀ z, Clip.interpFl fl z eq ⟨⟨0, 0, 1⟩, 0⟩ ⟨7, 1, 11⟩ (Clip.subFl fl ⟨7, 0, -11⟩ ⟨7, 1, 11⟩) = .fin (1 / 2) := by
    intro z
    have : Clip.dotFl fl ⟨0, 0, 1⟩ (Clip.subFl fl ⟨7, 0, -11⟩ ⟨7, 1, 11⟩) = -22 := by
      simp only [Clip.dotFl, Clip.subFl]
      norm_num [r0, r1, r2, r3, r4, r5, r6, r7, r8, r9, r10, r11, r12, r13, r14, r15, r16, r17, r18, r19, r20, r21, r22, r23, r24, r25, r26, r27, r28, r29, r30, r31, r32, r33, r34, r35, r36, r37, r38, r39, r40, r41, r42, r43]
    simp only [Clip.interpFl, this, s1]
    rw [Ext.div_ne (by norm_num)]
    simp only [Clip.roundExt]
    norm_num [r0, r1, r2, r3, r4, r5, r6, r7, r8, r9, r10, r11, r12, r13, r14, r15, r16, r17, r18, r19, r20, r21, r22, r23, r24, r25, r26, r27, r28, r29, r30, r31, r32, r33, r34, r35, r36, r37, r38, r39, r40, r41, r42, r43]
  have i32 : ∀ z, Clip.interpFl fl z eq ⟨⟨0, 0, 1⟩, 0⟩ ⟨7, 0, -11⟩ (Clip.subFl fl ⟨6, 0, 33⟩ ⟨7, 0, -11⟩) = .fin (1 / 4) := by
    intro z
    have : Clip.dotFl fl ⟨0, 0, 1⟩ (Clip.subFl fl ⟨6, 0, 33⟩ ⟨7, 0, -11⟩) = 44 := by
      simp only [Clip.dotFl, Clip.subFl]
      norm_num [r0, r1, r2, r3, r4, r5, r6, r7, r8, r9, r10, r11, r12, r13, r14, r15, r16, r17, r18, r19, r20, r21, r22, r23, r24, r25, r26, r27, r28, r29, r30, r31, r32, r33, r34, r35, r36, r37, r38, r39, r40, r41, r42, r43]
    simp only [Clip.interpFl, this, s3]
    rw [Ext.div_ne (by norm_num)]
    simp only [Clip.roundExt]
    norm_num [r0, r1, r2, r3, r4, r5, r6, r7, r8, r9, r10, r11, r12, r13, r14, r15, r16, r17, r18, r19, r20, r21, r22, r23, r24, r25, r26, r27, r28, r29, r30, r31, r32, r33, r34, r35, r36, r37, r38, r39, r40, r41, r42, r43]
  have i21 : ∀ z, Clip.interpFl fl z eq ⟨⟨0, 0, 1⟩, 0⟩ ⟨6, 0, 33⟩ (Clip.subFl fl ⟨7, 1, 11⟩ ⟨6, 0, 33⟩) = .fin (3 / 2) := by
    intro z
    have : Clip.dotFl fl ⟨0, 0, 1⟩ (Clip.subFl fl ⟨7, 1, 11⟩ ⟨6, 0, 33⟩) = -22 := by
      simp only [Clip.dotFl, Clip.subFl]
      norm_num [r0, r1, r2, r3, r4, r5, r6, r7, r8, r9, r10, r11, r12, r13, r14, r15, r16, r17, r18, r19, r20, r21, r22, r23, r24, r25, r26, r27, r28, r29, r30, r31, r32, r33, r34, r35, r36, r37, r38, r39, r40, r41, r42, r43]
    simp only [Clip.interpFl, this, s2]
    rw [Ext.div_ne (by norm_num)]
    simp only [Clip.roundExt]
    norm_num [r0, r1, r2, r3, r4, r5, r6, r7, r8, r9, r10, r11, r12, r13, r14, r15, r16, r17, r18, r19, r20, r21, r22, r23, r24, r25, r26, r27, r28, r29, r30, r31, r32, r33, r34, r35, r36, r37, r38, r39, r40, r41, r42, r43]
  have t0 : ∀ z, Clip.clipTriangleFl fl z eq ⟨⟨0, 0, 1⟩, 0⟩ ⟨⟨7, 0, 1⟩, ⟨7, 1, 11⟩, ⟨6, 0, 33⟩⟩ eps [] [] = .ok (.inFrontOf, [], []) := by
    intro z
    simp only [Clip.clipTriangleFl, Clip.corner, l0, l1, l2, l3]
    simp
  have t1 : ∀ z, Clip.clipTriangleFl fl z eq ⟨⟨0, 0, 1⟩, 0⟩ ⟨⟨7, 0, 1⟩, ⟨6, 0, 33⟩, ⟨7, 0, -11⟩⟩ eps [] [] = .ok (.clipped, [⟨1, 0, 0⟩, ⟨0, 1, 0⟩, ⟨0, 1 / 4, 3 / 4⟩, ⟨15379115 / 16777216, 0, 1398101 / 16777216⟩], [⟨0, 1 / 4, 3 / 4⟩, ⟨0, 0, 1⟩, ⟨15379115 / 16777216, 0, 1398101 / 16777216⟩]) := by
    intro z
    simp only [Clip.clipTriangleFl, Clip.corner, l0, l1, l2, l3]
    norm_num [Clip.edgeStepFl, Clip.addCutFl, Clip.corner, i02, i23, i30, i03, i31, i10, i13, i32, i21, Clip.addVertex, Clip.bary, Clip.cutPointFl, Poly.add, Res.bind, Ext.ge, Ext.le, l0, l1, l2, l3, r0, r1, r2, r3, r4, r5, r6, r7, r8, r9, r10, r11, r12, r13, r14, r15, r16, r17, r18, r19, r20, r21, r22, r23, r24, r25, r26, r27, r28, r29, r30, r31, r32, r33, r34, r35, r36, r37, r38, r39, r40, r41, r42, r43]
    simp
  have t2 : ∀ z, Clip.clipTriangleFl fl z eq ⟨⟨0, 0, 1⟩, 0⟩ ⟨⟨7, 0, 1⟩, ⟨7, 0, -11⟩, ⟨7, 1, 11⟩⟩ eps [] [] = .ok (.clipped, [⟨1, 0, 0⟩, ⟨15379115 / 16777216, 11184811 / 134217728, 0⟩, ⟨0, 1 / 2, 1 / 2⟩, ⟨0, 0, 1⟩], [⟨15379115 / 16777216, 11184811 / 134217728, 0⟩, ⟨0, 1, 0⟩, ⟨0, 1 / 2, 1 / 2⟩]) := by
    intro z
    simp only [Clip.clipTriangleFl, Clip.corner, l0, l1, l2, l3]
    norm_num [Clip.edgeStepFl, Clip.addCutFl, Clip.corner, i02, i23, i30, i03, i31, i10, i13, i32, i21, Clip.addVertex, Clip.bary, Clip.cutPointFl, Poly.add, Res.bind, Ext.ge, Ext.le, l0, l1, l2, l3, r0, r1, r2, r3, r4, r5, r6, r7, r8, r9, r10, r11, r12, r13, r14, r15, r16, r17, r18, r19, r20, r21, r22, r23, r24, r25, r26, r27, r28, r29, r30, r31, r32, r33, r34, r35, r36, r37, r38, r39, r40, r41, r42, r43]
    simp
  have t3 : ∀ z, Clip.clipTriangleFl fl z eq ⟨⟨0, 0, 1⟩, 0⟩ ⟨⟨7, 1, 11⟩, ⟨7, 0, -11⟩, ⟨6, 0, 33⟩⟩ eps [] [] = .ok (.clipped, [⟨1, 0, 0⟩, ⟨1 / 2, 1 / 2, 0⟩, ⟨0, 3 / 4, 1 / 4⟩, ⟨0, 0, 1⟩], [⟨1 / 2, 1 / 2, 0⟩, ⟨0, 1, 0⟩, ⟨0, 3 / 4, 1 / 4⟩]) := by
    intro z
    simp only [Clip.clipTriangleFl, Clip.corner, l0, l1, l2, l3]
    norm_num [Clip.edgeStepFl, Clip.addCutFl, Clip.corner, i02, i23, i30, i03, i31, i10, i13, i32, i21, Clip.addVertex, Clip.bary, Clip.cutPointFl, Poly.add, Res.bind, Ext.ge, Ext.le, l0, l1, l2, l3, r0, r1, r2, r3, r4, r5, r6, r7, r8, r9, r10, r11, r12, r13, r14, r15, r16, r17, r18, r19, r20, r21, r22, r23, r24, r25, r26, r27, r28, r29, r30, r31, r32, r33, r34, r35, r36, r37, r38, r39, r40, r41, r42, r43]
    simp
  simp only [clipMeshFl, crackFloat, clipLoopFl, clipOneFl, corners, getR, List.getElem?_cons_zero, List.getElem?_cons_succ, Res.bind_ok, t0, t1, t2, t3, clear]
  norm_num [addTriCopy, addTriangle, addFan, barycentricFl, corners, getR, mixFl, Res.bind, crackFloatFront, crackFloatBack, r0, r1, r2, r3, r4, r5, r6, r7, r8, r9, r10, r11, r12, r13, r14, r15, r16, r17, r18, r19, r20, r21, r22, r23, r24, r25, r26, r27, r28, r29, r30, r31, r32, r33, r34, r35, r36, r37, r38, r39, r40, r41, r42, r43]
  exact ⟨rfl, rfl⟩

/-- A closed tetrahedron. -/
def crackDouble : Mesh ℚ := ⟨[⟨⟨7, 0, 1⟩, 0, 0⟩, ⟨⟨7, 1, 11⟩, 0, 0⟩, ⟨⟨8, 0, 33⟩, 0, 0⟩, ⟨⟨7, 0, -11⟩, 0, 0⟩], [⟨0, 1, 2⟩, ⟨0, 2, 3⟩, ⟨0, 3, 1⟩, ⟨1, 3, 2⟩]⟩

/-- The part of the tetrahedron in front of the plane z = 0, computed with `double`. -/
def crackDoubleFront : Mesh ℚ :=
    ⟨[⟨⟨7, 0, 1⟩, 0, 0⟩,
      ⟨⟨7, 1, 11⟩, 0, 0⟩,
      ⟨⟨8, 0, 33⟩, 0, 0⟩,
      ⟨⟨7, 0, 1⟩, 0, 0⟩,
      ⟨⟨8, 0, 33⟩, 0, 0⟩,
      ⟨⟨29 / 4, 0, 0⟩, 0, 0⟩,
      ⟨⟨7, 0, -(1 / 2251799813685248)⟩, 0, 0⟩,
      ⟨⟨7, 0, 1⟩, 0, 0⟩,
      ⟨⟨7881299347898367 / 1125899906842624, 0, 0⟩, 0, 0⟩,
      ⟨⟨7, 1 / 2, 0⟩, 0, 0⟩,
      ⟨⟨7, 1, 11⟩, 0, 0⟩,
      ⟨⟨7, 1, 11⟩, 0, 0⟩,
      ⟨⟨7, 1 / 2, 0⟩, 0, 0⟩,
      ⟨⟨29 / 4, 0, 0⟩, 0, 0⟩,
      ⟨⟨8, 0, 33⟩, 0, 0⟩],
      [⟨0, 1, 2⟩, ⟨3, 4, 5⟩, ⟨3, 5, 6⟩, ⟨7, 8, 9⟩, ⟨7, 9, 10⟩, ⟨11, 12, 13⟩, ⟨11, 13, 14⟩]⟩

/-- The part of the tetrahedron behind the plane. -/
def crackDoubleBack : Mesh ℚ :=
    ⟨[⟨⟨29 / 4, 0, 0⟩, 0, 0⟩,
      ⟨⟨7, 0, -11⟩, 0, 0⟩,
      ⟨⟨7, 0, -(1 / 2251799813685248)⟩, 0, 0⟩,
      ⟨⟨7881299347898367 / 1125899906842624, 0, 0⟩, 0, 0⟩,
      ⟨⟨7, 0, -11⟩, 0, 0⟩,
      ⟨⟨7, 1 / 2, 0⟩, 0, 0⟩,
      ⟨⟨7, 1 / 2, 0⟩, 0, 0⟩,
      ⟨⟨7, 0, -11⟩, 0, 0⟩,
      ⟨⟨29 / 4, 0, 0⟩, 0, 0⟩],
      [⟨0, 1, 2⟩, ⟨3, 4, 5⟩, ⟨6, 7, 8⟩]⟩

theorem crack_double (hf : IsNearest 53 (-1074) fl) {eps : ℚ} (h0 : 0 ≤ eps) (h1 : eps < 1) (nz : ℕ → ℕ → Bool) (eq : Eqn) (front back : Mesh ℚ) :
    clipMeshFl fl nz eq ⟨⟨0, 0, 1⟩, 0⟩ eps crackDouble front back = .ok (crackDoubleFront, crackDoubleBack) := by
  have fx : ∀ (m e : ℤ), -1074 ≤ e → |m| < 2 ^ 53 → fl (m * 2 ^ e) = m * 2 ^ e := fun m e h1 h2 => hf.fix _ ⟨m, e, h2, h1, rfl⟩
  have r0 := fx (-44) (0) (by norm_num) (by norm_num)
  have r1 := fx (-22) (0) (by norm_num) (by norm_num)
  have r2 := fx (-12) (0) (by norm_num) (by norm_num)
  have r3 := fx (-11) (0) (by norm_num) (by norm_num)
  have r4 := fx (-10) (0) (by norm_num) (by norm_num)
  have r5 := fx (-33) (-2) (by norm_num) (by norm_num)
  have r6 := fx (-11) (-1) (by norm_num) (by norm_num)
  have r7 := fx (-1) (0) (by norm_num) (by norm_num)
  have r8 := fx (-8256599316845913) (-53) (by norm_num) (by norm_num)
  have r9 : fl (-66052794534767271 / 72057594037927936) = _ := near_eq hf (by norm_num) (k := -8256599316845909) (e := -53) (by norm_num) (by norm_num) (by norm_num) (by norm_num [abs_lt])
  have r10 := fx (-1) (-5) (by norm_num) (by norm_num)
  have r11 := fx (-1) (-51) (by norm_num) (by norm_num)
  have r12 := fx (0) (0) (by norm_num) (by norm_num)
  have r13 : fl (1 / 12) = _ := near_eq hf (by norm_num) (k := 6004799503160661) (e := -56) (by norm_num) (by norm_num) (by norm_num) (by norm_num [abs_lt])
  have r14 := fx (750599937895083) (-53) (by norm_num) (by norm_num)
  have r15 := fx (1) (-2) (by norm_num) (by norm_num)
  have r16 := fx (1) (-1) (by norm_num) (by norm_num)
  have r17 : fl (42033596522124627 / 72057594037927936) = _ := near_eq hf (by norm_num) (k := 5254199565265578) (e := -53) (by norm_num) (by norm_num) (by norm_num) (by norm_num [abs_lt])
  have r18 := fx (5254199565265581) (-53) (by norm_num) (by norm_num)
  have r19 := fx (3) (-2) (by norm_num) (by norm_num)
  have r20 := fx (8256599316845909) (-53) (by norm_num) (by norm_num)
  have r21 : fl (11 / 12) = _ := near_eq hf (by norm_num) (k := 8256599316845909) (e := -53) (by norm_num) (by norm_num) (by norm_num) (by norm_num [abs_lt])
  have r22 : fl (66052794534767275 / 72057594037927936) = _ := near_eq hf (by norm_num) (k := 8256599316845909) (e := -53) (by norm_num) (by norm_num) (by norm_num) (by norm_num [abs_lt])
  have r23 := fx (1) (0) (by norm_num) (by norm_num)
  have r24 : fl (11 / 10) = _ := near_eq hf (by norm_num) (k := 4953959590107546) (e := -52) (by norm_num) (by norm_num) (by norm_num) (by norm_num [abs_lt])
  have r25 := fx (3) (-1) (by norm_num) (by norm_num)
  have r26 := fx (2) (0) (by norm_num) (by norm_num)
  have r27 := fx (7) (-1) (by norm_num) (by norm_num)
  have r28 := fx (21) (-2) (by norm_num) (by norm_num)
  have r29 := fx (11) (-1) (by norm_num) (by norm_num)
  have r30 := fx (3612262201120085) (-49) (by norm_num) (by norm_num)
  have r31 : fl (57796195217921363 / 9007199254740992) = _ := near_eq hf (by norm_num) (k := 7224524402240170) (e := -50) (by norm_num) (by norm_num) (by norm_num) (by norm_num [abs_lt])
  have r32 := fx (7881299347898367) (-50) (by norm_num) (by norm_num)
  have r33 : fl (31525197391593469 / 4503599627370496) = _ := near_eq hf (by norm_num) (k := 7881299347898367) (e := -50) (by norm_num) (by norm_num) (by norm_num) (by norm_num [abs_lt])
  have r34 : fl (63050394783186941 / 9007199254740992) = _ := near_eq hf (by norm_num) (k := 7881299347898368) (e := -50) (by norm_num) (by norm_num) (by norm_num) (by norm_num [abs_lt])
  have r35 := fx (7) (0) (by norm_num) (by norm_num)
  have r36 := fx (29) (-2) (by norm_num) (by norm_num)
  have r37 := fx (8) (0) (by norm_num) (by norm_num)
  have r38 := fx (33) (-2) (by norm_num) (by norm_num)
  have r39 := fx (11) (0) (by norm_num) (by norm_num)
  have r40 := fx (12) (0) (by norm_num) (by norm_num)
  have r41 := fx (22) (0) (by norm_num) (by norm_num)
  have r42 := fx (32) (0) (by norm_num) (by norm_num)
  have r43 := fx (33) (0) (by norm_num) (by norm_num)
  have r44 := fx (44) (0) (by norm_num) (by norm_num)
  norm_num at r0 r1 r2 r3 r4 r5 r6 r7 r8 r9 r10 r11 r12 r13 r14 r15 r16 r17 r18 r19 r20 r21 r22 r23 r24 r25 r26 r27 r28 r29 r30 r31 r32 r33 r34 r35 r36 r37 r38 r39 r40 r41 r42 r43 r44
  have hd : (eq.distanceSign (0 : ℚ)) = 0 := by cases eq <;> simp [Eqn.distanceSign]
  have s0 : Clip.sgnDistanceFl fl eq ⟨⟨0, 0, 1⟩, 0⟩ ⟨7, 0, 1⟩ = 1 := by
    simp only [Clip.sgnDistanceFl, Clip.dotFl, hd]
    norm_num [r0, r1, r2, r3, r4, r5, r6, r7, r8, r9, r10, r11, r12, r13, r14, r15, r16, r17, r18, r19, r20, r21, r22, r23, r24, r25, r26, r27, r28, r29, r30, r31, r32, r33, r34, r35, r36, r37, r38, r39, r40, r41, r42, r43, r44]
  have l0 : Clip.relationPointFl fl eq ⟨⟨0, 0, 1⟩, 0⟩ ⟨7, 0, 1⟩ eps = .inFrontOf := by
    simp only [Clip.relationPointFl, s0]
    rw [if_pos (by linarith)]
  have s1 : Clip.sgnDistanceFl fl eq ⟨⟨0, 0, 1⟩, 0⟩ ⟨7, 1, 11⟩ = 11 := by
    simp only [Clip.sgnDistanceFl, Clip.dotFl, hd]
    norm_num [r0, r1, r2, r3, r4, r5, r6, r7, r8, r9, r10, r11, r12, r13, r14, r15, r16, r17, r18, r19, r20, r21, r22, r23, r24, r25, r26, r27, r28, r29, r30, r31, r32, r33, r34, r35, r36, r37, r38, r39, r40, r41, r42, r43, r44]
  have l1 : Clip.relationPointFl fl eq ⟨⟨0, 0, 1⟩, 0⟩ ⟨7, 1, 11⟩ eps = .inFrontOf := by
    simp only [Clip.relationPointFl, s1]
    rw [if_pos (by linarith)]
  have s2 : Clip.sgnDistanceFl fl eq ⟨⟨0, 0, 1⟩, 0⟩ ⟨8, 0, 33⟩ = 33 := by
    simp only [Clip.sgnDistanceFl, Clip.dotFl, hd]
    norm_num [r0, r1, r2, r3, r4, r5, r6, r7, r8, r9, r10, r11, r12, r13, r14, r15, r16, r17, r18, r19, r20, r21, r22, r23, r24, r25, r26, r27, r28, r29, r30, r31, r32, r33, r34, r35, r36, r37, r38, r39, r40, r41, r42, r43, r44]
  have l2 : Clip.relationPointFl fl eq ⟨⟨0, 0, 1⟩, 0⟩ ⟨8, 0, 33⟩ eps = .inFrontOf := by
    simp only [Clip.relationPointFl, s2]
    rw [if_pos (by linarith)]
  have s3 : Clip.sgnDistanceFl fl eq ⟨⟨0, 0, 1⟩, 0⟩ ⟨7, 0, -11⟩ = -11 := by
    simp only [Clip.sgnDistanceFl, Clip.dotFl, hd]
    norm_num [r0, r1, r2, r3, r4, r5, r6, r7, r8, r9, r10, r11, r12, r13, r14, r15, r16, r17, r18, r19, r20, r21, r22, r23, r24, r25, r26, r27, r28, r29, r30, r31, r32, r33, r34, r35, r36, r37, r38, r39, r40, r41, r42, r43, r44]
  have l3 : Clip.relationPointFl fl eq ⟨⟨0, 0, 1⟩, 0⟩ ⟨7, 0, -11⟩ eps = .behind := by
    simp only [Clip.relationPointFl, s3]
    rw [if_neg (by linarith), if_pos (by linarith)]
  have i02 : ∀ z, Clip.interpFl fl z eq ⟨⟨0, 0, 1⟩, 0⟩ ⟨7, 0, 1⟩ (Clip.subFl fl ⟨8, 0, 33⟩ ⟨7, 0, 1⟩) = .fin (-(1 / 32)) := by
    intro z
    have : Clip.dotFl fl ⟨0, 0, 1⟩ (Clip.subFl fl ⟨8, 0, 33⟩ ⟨7, 0, 1⟩) = 32 := by
      simp only [Clip.dotFl, Clip.subFl]
      norm_num [r0, r1, r2, r3, r4, r5, r6, r7, r8, r9, r10, r11, r12, r13, r14, r15, r16, r17, r18, r19, r20, r21, r22, r23, r24, r25, r26, r27, r28, r29, r30, r31, r32, r33, r34, r35, r36, r37, r38, r39, r40, r41, r42, r43, r44]
    simp only [Clip.interpFl, this, s0]
    rw [Ext.div_ne (by norm_num)]
    simp only [Clip.roundExt]
    norm_num [r0, r1, r2, r3, r4, r5, r6, r7, r8, r9, r10, r11, r12, r13, r14, r15, r16, r17, r18, r19, r20, r21, r22, r23, r24, r25, r26, r27, r28, r29, r30, r31, r32, r33, r34, r35, r36, r37, r38, r39, r40, r41, r42, r43, r44]
  have i23 : ∀ z, Clip.interpFl fl z eq ⟨⟨0, 0, 1⟩, 0⟩ ⟨8, 0, 33⟩ (Clip.subFl fl ⟨7, 0, -11⟩ ⟨8, 0, 33⟩) = .fin (3 / 4) := by
    intro z
    have : Clip.dotFl fl ⟨0, 0, 1⟩ (Clip.subFl fl ⟨7, 0, -11⟩ ⟨8, 0, 33⟩) = -44 := by
      simp only [Clip.dotFl, Clip.subFl]
      norm_num [r0, r1, r2, r3, r4, r5, r6, r7, r8, r9, r10, r11, r12, r13, r14, r15, r16, r17, r18, r19, r20, r21, r22, r23, r24, r25, r26, r27, r28, r29, r30, r31, r32, r33, r34, r35, r36, r37, r38, r39, r40, r41, r42, r43, r44]
    simp only [Clip.interpFl, this, s2]
    rw [Ext.div_ne (by norm_num)]
    simp only [Clip.roundExt]
    norm_num [r0, r1, r2, r3, r4, r5, r6, r7, r8, r9, r10, r11, r12, r13, r14, r15, r16, r17, r18, r19, r20, r21, r22, r23, r24, r25, r26, r27, r28, r29, r30, r31, r32, r33, r34, r35, r36, r37, r38, r39, r40, r41, r42, r43, r44]
  have i30 : ∀ z, Clip.interpFl fl z eq ⟨⟨0, 0, 1⟩, 0⟩ ⟨7, 0, -11⟩ (Clip.subFl fl ⟨7, 0, 1⟩ ⟨7, 0, -11⟩) = .fin (8256599316845909 / 9007199254740992) := by
    intro z
    have : Clip.dotFl fl ⟨0, 0, 1⟩ (Clip.subFl fl ⟨7, 0, 1⟩ ⟨7, 0, -11⟩) = 12 := by
      simp only [Clip.dotFl, Clip.subFl]
      norm_num [r0, r1, r2, r3, r4, r5, r6, r7, r8, r9, r10, r11, r12, r13, r14, r15, r16, r17, r18, r19, r20, r21, r22, r23, r24, r25, r26, r27, r28, r29, r30, r31, r32, r33, r34, r35, r36, r37, r38, r39, r40, r41, r42, r43, r44]
    simp only [Clip.interpFl, this, s3]
    rw [Ext.div_ne (by norm_num)]
    simp only [Clip.roundExt]
    norm_num [r0, r1, r2, r3, r4, r5, r6, r7, r8, r9, r10, r11, r12, r13, r14, r15, r16, r17, r18, r19, r20, r21, r22, r23, r24, r25, r26, r27, r28, r29, r30, r31, r32, r33, r34, r35, r36, r37, r38, r39, r40, r41, r42, r43, r44]
  have i03 : ∀ z, Clip.interpFl fl z eq ⟨⟨0, 0, 1⟩, 0⟩ ⟨7, 0, 1⟩ (Clip.subFl fl ⟨7, 0, -11⟩ ⟨7, 0, 1⟩) = .fin (6004799503160661 / 72057594037927936) := by
    intro z
    have : Clip.dotFl fl ⟨0, 0, 1⟩ (Clip.subFl fl ⟨7, 0, -11⟩ ⟨7, 0, 1⟩) = -12 := by
      simp only [Clip.dotFl, Clip.subFl]
      norm_num [r0, r1, r2, r3, r4, r5, r6, r7, r8, r9, r10, r11, r12, r13, r14, r15, r16, r17, r18, r19, r20, r21, r22, r23, r24, r25, r26, r27, r28, r29, r30, r31, r32, r33, r34, r35, r36, r37, r38, r39, r40, r41, r42, r43, r44]
    simp only [Clip.interpFl, this, s0]
    rw [Ext.div_ne (by norm_num)]
    simp only [Clip.roundExt]
    norm_num [r0, r1, r2, r3, r4, r5, r6, r7, r8, r9, r10, r11, r12, r13, r14, r15, r16, r17, r18, r19, r20, r21, r22, r23, r24, r25, r26, r27, r28, r29, r30, r31, r32, r33, r34, r35, r36, r37, r38, r39, r40, r41, r42, r43, r44]
  have i31 : ∀ z, Clip.interpFl fl z eq ⟨⟨0, 0, 1⟩, 0⟩ ⟨7, 0, -11⟩ (Clip.subFl fl ⟨7, 1, 11⟩ ⟨7, 0, -11⟩) = .fin (1 / 2) := by
    intro z
    have : Clip.dotFl fl ⟨0, 0, 1⟩ (Clip.subFl fl ⟨7, 1, 11⟩ ⟨7, 0, -11⟩) = 22 := by
      simp only [Clip.dotFl, Clip.subFl]
      norm_num [r0, r1, r2, r3, r4, r5, r6, r7, r8, r9, r10, r11, r12, r13, r14, r15, r16, r17, r18, r19, r20, r21, r22, r23, r24, r25, r26, r27, r28, r29, r30, r31, r32, r33, r34, r35, r36, r37, r38, r39, r40, r41, r42, r43, r44]
    simp only [Clip.interpFl, this, s3]
    rw [Ext.div_ne (by norm_num)]
    simp only [Clip.roundExt]
    norm_num [r0, r1, r2, r3, r4, r5, r6, r7, r8, r9, r10, r11, r12, r13, r14, r15, r16, r17, r18, r19, r20, r21, r22, r23, r24, r25, r26, r27, r28, r29, r30, r31, r32, r33, r34, r35, r36, r37, r38, r39, r40, r41, r42, r43, r44]
  have i10 : ∀ z, Clip.interpFl fl z eq ⟨⟨0, 0, 1⟩, 0⟩ ⟨7, 1, 11⟩ (Clip.subFl fl ⟨7, 0, 1⟩ ⟨7, 1, 11⟩) = .fin (2476979795053773 / 2251799813685248) := by
    intro z
    have : Clip.dotFl fl ⟨0, 0, 1⟩ (Clip.subFl fl ⟨7, 0, 1⟩ ⟨7, 1, 11⟩) = -10 := by
      simp only [Clip.dotFl, Clip.subFl]
      norm_num [r0, r1, r2, r3, r4, r5, r6, r7, r8, r9, r10, r11, r12, r13, r14, r15, r16, r17, r18, r19, r20, r21, r22, r23, r24, r25, r26, r27, r28, r29, r30, r31, r32, r33, r34, r35, r36, r37, r38, r39, r40, r41, r42, r43, r44]
    simp only [Clip.interpFl, this, s1]
    rw [Ext.div_ne (by norm_num)]
    simp only [Clip.roundExt]
    norm_num [r0, r1, r2, r3, r4, r5, r6, r7, r8, r9, r10, r11, r12, r13, r14, r15, r16, r17, r18, r19, r20, r21, r22, r23, r24, r25, r26, r27, r28, r29, r30, r31, r32, r33, r34, r35, r36, r37, r38, r39, r40, r41, r42, r43, r44]
  have i13 : ∀ z, Clip.interpFl fl z eq ⟨⟨0, 0, 1⟩, 0⟩ ⟨7, 1, 11⟩ (Clip.subFl fl ⟨7, 0, -11⟩ ⟨7, 1, 11⟩) = .fin (1 / 2) := by
    intro z
    have : Clip.dotFl fl ⟨0, 0, 1⟩ (Clip.subFl fl ⟨7, 0, -11⟩ ⟨7, 1, 11⟩) = -22 := by
      simp only [Clip.dotFl, Clip.subFl]
      norm_num [r0, r1, r2, r3, r4, r5, r6, r7, r8, r9, r10, r11, r12, r13, r14, r15, r16, r17, r18, r19, r20, r21, r22, r23, r24, r25, r26, r27, r28, r29, r30, r31, r32, r33, r34, r35, r36, r37, r38, r39, r40, r41, r42, r43, r44]
    simp only [Clip.interpFl, this, s1]
    rw [Ext.div_ne (by norm_num)]
    simp only [Clip.roundExt]
    norm_num [r0, r1, r2, r3, r4, r5, r6, r7, r8, r9, r10, r11, r12, r13, r14, r15, r16, r17, r18, r19, r20, r21, r22, r23, r24, r25, r26, r27, r28, r29, r30, r31, r32, r33, r34, r35, r36, r37, r38, r39, r40, r41, r42, r43, r44]
  have i32 : ∀ z, Clip.interpFl fl z eq ⟨⟨0, 0, 1⟩, 0⟩ ⟨7, 0, -11⟩ (Clip.subFl fl ⟨8, 0, 33⟩ ⟨7, 0, -11⟩) = .fin (1 / 4) := by
    intro z
    have : Clip.dotFl fl ⟨0, 0, 1⟩ (Clip.subFl fl ⟨8, 0, 33⟩ ⟨7, 0, -11⟩) = 44 := by
      simp only [Clip.dotFl, Clip.subFl]
      norm_num [r0, r1, r2, r3, r4, r5, r6, r7, r8, r9, r10, r11, r12, r13, r14, r15, r16, r17, r18, r19, r20, r21, r22, r23, r24, r25, r26, r27, r28, r29, r30, r31, r32, r33, r34, r35, r36, r37, r38, r39, r40, r41, r42, r43, r44]
    simp only [Clip.interpFl, this, s3]
    rw [Ext.div_ne (by norm_num)]
    simp only [Clip.roundExt]
    norm_num [r0, r1, r2, r3, r4, r5, r6, r7, r8, r9, r10, r11, r12, r13, r14, r15, r16, r17, r18, r19, r20, r21, r22, r23, r24, r25, r26, r27, r28, r29, r30, r31, r32, r33, r34, r35, r36, r37, r38, r39, r40, r41, r42, r43, r44]
  have i21 : ∀ z, Clip.interpFl fl z eq ⟨⟨0, 0, 1⟩, 0⟩ ⟨8, 0, 33⟩ (Clip.subFl fl ⟨7, 1, 11⟩ ⟨8, 0, 33⟩) = .fin (3 / 2) := by
    intro z
    have : Clip.dotFl fl ⟨0, 0, 1⟩ (Clip.subFl fl ⟨7, 1, 11⟩ ⟨8, 0, 33⟩) = -22 := by
      simp only [Clip.dotFl, Clip.subFl]
      norm_num [r0, r1, r2, r3, r4, r5, r6, r7, r8, r9, r10, r11, r12, r13, r14, r15, r16, r17, r18, r19, r20, r21, r22, r23, r24, r25, r26, r27, r28, r29, r30, r31, r32, r33, r34, r35, r36, r37, r38, r39, r40, r41, r42, r43, r44]
    simp only [Clip.interpFl, this, s2]
    rw [Ext.div_ne (by norm_num)]
    simp only [Clip.roundExt]
    norm_num [r0, r1, r2, r3, r4, r5, r6, r7, r8, r9, r10, r11, r12, r13, r14, r15, r16, r17, r18, r19, r20, r21, r22, r23, r24, r25, r26, r27, r28, r29, r30, r31, r32, r33, r34, r35, r36, r37, r38, r39, r40, r41, r42, r43, r44]
  have t0 : ∀ z, Clip.clipTriangleFl fl z eq ⟨⟨0, 0, 1⟩, 0⟩ ⟨⟨7, 0, 1⟩, ⟨7, 1, 11⟩, ⟨8, 0, 33⟩⟩ eps [] [] = .ok (.inFrontOf, [], []) := by
    intro z
    simp only [Clip.clipTriangleFl, Clip.corner, l0, l1, l2, l3]
    simp
  have t1 : ∀ z, Clip.clipTriangleFl fl z eq ⟨⟨0, 0, 1⟩, 0⟩ ⟨⟨7, 0, 1⟩, ⟨8, 0, 33⟩, ⟨7, 0, -11⟩⟩ eps [] [] = .ok (.clipped, [⟨1, 0, 0⟩, ⟨0, 1, 0⟩, ⟨0, 1 / 4, 3 / 4⟩, ⟨8256599316845909 / 9007199254740992, 0, 750599937895083 / 9007199254740992⟩], [⟨0, 1 / 4, 3 / 4⟩, ⟨0, 0, 1⟩, ⟨8256599316845909 / 9007199254740992, 0, 750599937895083 / 9007199254740992⟩]) := by
    intro z
    simp only [Clip.clipTriangleFl, Clip.corner, l0, l1, l2, l3]
    norm_num [Clip.edgeStepFl, Clip.addCutFl, Clip.corner, i02, i23, i30, i03, i31, i10, i13, i32, i21, Clip.addVertex, Clip.bary, Clip.cutPointFl, Poly.add, Res.bind, Ext.ge, Ext.le, l0, l1, l2, l3, r0, r1, r2, r3, r4, r5, r6, r7, r8, r9, r10, r11, r12, r13, r14, r15, r16, r17, r18, r19, r20, r21, r22, r23, r24, r25, r26, r27, r28, r29, r30, r31, r32, r33, r34, r35, r36, r37, r38, r39, r40, r41, r42, r43, r44]
    simp
  have t2 : ∀ z, Clip.clipTriangleFl fl z eq ⟨⟨0, 0, 1⟩, 0⟩ ⟨⟨7, 0, 1⟩, ⟨7, 0, -11⟩, ⟨7, 1, 11⟩⟩ eps [] [] = .ok (.clipped, [⟨1, 0, 0⟩, ⟨8256599316845909 / 9007199254740992, 6004799503160661 / 72057594037927936, 0⟩, ⟨0, 1 / 2, 1 / 2⟩, ⟨0, 0, 1⟩], [⟨8256599316845909 / 9007199254740992, 6004799503160661 / 72057594037927936, 0⟩, ⟨0, 1, 0⟩, ⟨0, 1 / 2, 1 / 2⟩]) := by
    intro z
    simp only [Clip.clipTriangleFl, Clip.corner, l0, l1, l2, l3]
    norm_num [Clip.edgeStepFl, Clip.addCutFl, Clip.corner, i02, i23, i30, i03, i31, i10, i13, i32, i21, Clip.addVertex, Clip.bary, Clip.cutPointFl, Poly.add, Res.bind, Ext.ge, Ext.le, l0, l1, l2, l3, r0, r1, r2, r3, r4, r5, r6, r7, r8, r9, r10, r11, r12, r13, r14, r15, r16, r17, r18, r19, r20, r21, r22, r23, r24, r25, r26, r27, r28, r29, r30, r31, r32, r33, r34, r35, r36, r37, r38, r39, r40, r41, r42, r43, r44]
    simp
  have t3 : ∀ z, Clip.clipTriangleFl fl z eq ⟨⟨0, 0, 1⟩, 0⟩ ⟨⟨7, 1, 11⟩, ⟨7, 0, -11⟩, ⟨8, 0, 33⟩⟩ eps [] [] = .ok (.clipped, [⟨1, 0, 0⟩, ⟨1 / 2, 1 / 2, 0⟩, ⟨0, 3 / 4, 1 / 4⟩, ⟨0, 0, 1⟩], [⟨1 / 2, 1 / 2, 0⟩, ⟨0, 1, 0⟩, ⟨0, 3 / 4, 1 / 4⟩]) := by
    intro z
    simp only [Clip.clipTriangleFl, Clip.corner, l0, l1, l2, l3]
    norm_num [Clip.edgeStepFl, Clip.addCutFl, Clip.corner, i02, i23, i30, i03, i31, i10, i13, i32, i21, Clip.addVertex, Clip.bary, Clip.cutPointFl, Poly.add, Res.bind, Ext.ge, Ext.le, l0, l1, l2, l3, r0, r1, r2, r3, r4, r5, r6, r7, r8, r9, r10, r11, r12, r13, r14, r15, r16, r17, r18, r19, r20, r21, r22, r23, r24, r25, r26, r27, r28, r29, r30, r31, r32, r33, r34, r35, r36, r37, r38, r39, r40, r41, r42, r43, r44]
    simp
  simp only [clipMeshFl, crackDouble, clipLoopFl, clipOneFl, corners, getR, List.getElem?_cons_zero, List.getElem?_cons_succ, Res.bind_ok, t0, t1, t2, t3, clear]
  norm_num [addTriCopy, addTriangle, addFan, barycentricFl, corners, getR, mixFl, Res.bind, crackDoubleFront, crackDoubleBack, r0, r1, r2, r3, r4, r5, r6, r7, r8, r9, r10, r11, r12, r13, r14, r15, r16, r17, r18, r19, r20, r21, r22, r23, r24, r25, r26, r27, r28, r29, r30, r31, r32, r33, r34, r35, r36, r37, r38, r39, r40, r41, r42, r43, r44]
  exact ⟨rfl, rfl⟩

/-- C113: with `float` a closed tetrahedron is cut by the plane z = 0, and both parts are open beside the plane: the edge between the corner
(7, 0, 1) in front and the corner (7, 0, -11) behind is cut at different points for its two triangles. -/
theorem C113_crack_float_refuted (hf : IsNearest 24 (-149) fl) {eps : ℚ} (h0 : 0 ≤ eps) (h1 : eps < 1) (nz : ℕ → ℕ → Bool) (eq : Eqn)
    (front back : Mesh ℚ) :
    ∃ (m f b : Mesh ℚ) (p q x y : V3 ℚ), Valid m ∧ ClosedMesh m ∧ (∀ t ∈ m.triangles, ExactAt eq ⟨⟨0, 0, 1⟩, 0⟩ eps m t) ∧
      clipMeshFl fl nz eq ⟨⟨0, 0, 1⟩, 0⟩ eps m front back = .ok (f, b) ∧ side eq ⟨⟨0, 0, 1⟩, 0⟩ p = 1 ∧ ¬ Paired (posEdges f) p q ∧
      side eq ⟨⟨0, 0, 1⟩, 0⟩ x = -11 ∧ ¬ Paired (posEdges b) x y := by
  have hs : ∀ x : V3 ℚ, side eq ⟨⟨0, 0, 1⟩, 0⟩ x = x.z := by intro x; cases eq <;> simp [side, V3.dot]
  refine ⟨crackFloat, crackFloatFront, crackFloatBack, ⟨7, 0, 1⟩, ⟨14680065 / 2097152, 0, 0⟩, ⟨7, 0, -11⟩, ⟨14680065 / 2097152, 0, 0⟩, (valid_iff _).2 (by decide +kernel),
    closed_of_perm _ (by decide +kernel), ?_, crack_float hf h0 h1 nz eq front back, hs _, ?_, hs _, ?_⟩
  · have hz : ∀ i, 1 ≤ (posAt crackFloat i).z ∨ (posAt crackFloat i).z ≤ -1 ∨ (posAt crackFloat i).z = 0 := by
      intro i
      match i with
      | 0 => left; norm_num [posAt, crackFloat]
      | 1 => left; norm_num [posAt, crackFloat]
      | 2 => left; norm_num [posAt, crackFloat]
      | 3 => right; left; norm_num [posAt, crackFloat]
      | n + 4 => right; right; simp [posAt, crackFloat]
    have ex : ∀ i, -eps ≤ side eq ⟨⟨0, 0, 1⟩, 0⟩ (posAt crackFloat i) → side eq ⟨⟨0, 0, 1⟩, 0⟩ (posAt crackFloat i) ≤ eps →
        side eq ⟨⟨0, 0, 1⟩, 0⟩ (posAt crackFloat i) = 0 := by
      intro i a b
      rw [hs] at a b ⊢
      rcases hz i with h | h | h
      · linarith
      · linarith
      · exact h
    exact fun t _ i => ex _
  · unfold Paired; decide +kernel
  · unfold Paired; decide +kernel

/-- C113: with `float` a vertex of the mesh in front is outside of the bounding box of the mesh. -/
theorem C113_box_float_refuted (hf : IsNearest 24 (-149) fl) {eps : ℚ} (h0 : 0 ≤ eps) (h1 : eps < 1) (nz : ℕ → ℕ → Bool) (eq : Eqn)
    (front back : Mesh ℚ) :
    ∃ m f b : Mesh ℚ, Valid m ∧ (∀ v ∈ m.vertices, v.position.x ≤ 7) ∧
      clipMeshFl fl nz eq ⟨⟨0, 0, 1⟩, 0⟩ eps m front back = .ok (f, b) ∧ ∃ v ∈ f.vertices, 7 < v.position.x := by
  refine ⟨crackFloat, crackFloatFront, crackFloatBack, (valid_iff _).2 (by decide +kernel), by decide +kernel, crack_float hf h0 h1 nz eq front back, ?_⟩
  exact ⟨⟨⟨14680065 / 2097152, 0, 0⟩, 0, 0⟩, by decide +kernel, by norm_num⟩

/-- C113: with `double` a closed tetrahedron is cut by the plane z = 0, and both parts are open beside the plane: the edge between the corner
(7, 0, 1) in front and the corner (7, 0, -11) behind is cut at different points for its two triangles. -/
theorem C113_crack_double_refuted (hf : IsNearest 53 (-1074) fl) {eps : ℚ} (h0 : 0 ≤ eps) (h1 : eps < 1) (nz : ℕ → ℕ → Bool) (eq : Eqn)
    (front back : Mesh ℚ) :
    ∃ (m f b : Mesh ℚ) (p q x y : V3 ℚ), Valid m ∧ ClosedMesh m ∧ (∀ t ∈ m.triangles, ExactAt eq ⟨⟨0, 0, 1⟩, 0⟩ eps m t) ∧
      clipMeshFl fl nz eq ⟨⟨0, 0, 1⟩, 0⟩ eps m front back = .ok (f, b) ∧ side eq ⟨⟨0, 0, 1⟩, 0⟩ p = 1 ∧ ¬ Paired (posEdges f) p q ∧
      side eq ⟨⟨0, 0, 1⟩, 0⟩ x = -11 ∧ ¬ Paired (posEdges b) x y := by
  have hs : ∀ x : V3 ℚ, side eq ⟨⟨0, 0, 1⟩, 0⟩ x = x.z := by intro x; cases eq <;> simp [side, V3.dot]
  refine ⟨crackDouble, crackDoubleFront, crackDoubleBack, ⟨7, 0, 1⟩, ⟨7881299347898367 / 1125899906842624, 0, 0⟩, ⟨7, 0, -11⟩, ⟨7881299347898367 / 1125899906842624, 0, 0⟩, (valid_iff _).2 (by decide +kernel),
    closed_of_perm _ (by decide +kernel), ?_, crack_double hf h0 h1 nz eq front back, hs _, ?_, hs _, ?_⟩
  · have hz : ∀ i, 1 ≤ (posAt crackDouble i).z ∨ (posAt crackDouble i).z ≤ -1 ∨ (posAt crackDouble i).z = 0 := by
      intro i
      match i with
      | 0 => left; norm_num [posAt, crackDouble]
      | 1 => left; norm_num [posAt, crackDouble]
      | 2 => left; norm_num [posAt, crackDouble]
      | 3 => right; left; norm_num [posAt, crackDouble]
      | n + 4 => right; right; simp [posAt, crackDouble]
    have ex : ∀ i, -eps ≤ side eq ⟨⟨0, 0, 1⟩, 0⟩ (posAt crackDouble i) → side eq ⟨⟨0, 0, 1⟩, 0⟩ (posAt crackDouble i) ≤ eps →
        side eq ⟨⟨0, 0, 1⟩, 0⟩ (posAt crackDouble i) = 0 := by
      intro i a b
      rw [hs] at a b ⊢
      rcases hz i with h | h | h
      · linarith
      · linarith
      · exact h
    exact fun t _ i => ex _
  · unfold Paired; decide +kernel
  · unfold Paired; decide +kernel

/-- C113: with `double` a vertex of the mesh in front is outside of the bounding box of the mesh. -/
theorem C113_box_double_refuted (hf : IsNearest 53 (-1074) fl) {eps : ℚ} (h0 : 0 ≤ eps) (h1 : eps < 1) (nz : ℕ → ℕ → Bool) (eq : Eqn)
    (front back : Mesh ℚ) :
    ∃ m f b : Mesh ℚ, Valid m ∧ (∀ v ∈ m.vertices, v.position.x ≥ 7) ∧
      clipMeshFl fl nz eq ⟨⟨0, 0, 1⟩, 0⟩ eps m front back = .ok (f, b) ∧ ∃ v ∈ f.vertices, 7 > v.position.x := by
  refine ⟨crackDouble, crackDoubleFront, crackDoubleBack, (valid_iff _).2 (by decide +kernel), by decide +kernel, crack_double hf h0 h1 nz eq front back, ?_⟩
  exact ⟨⟨⟨7881299347898367 / 1125899906842624, 0, 0⟩, 0, 0⟩, by decide +kernel, by norm_num⟩

/-- The witnesses for the tolerance 1/1000. -/
example := C113_crack_float_refuted (nearest_isNearest (by norm_num)) (eps := 1 / 1000) (by norm_num) (by norm_num) (fun _ _ => false) .nxEqD
  Mesh.empty Mesh.empty
example := C113_box_float_refuted (nearest_isNearest (by norm_num)) (eps := 1 / 1000) (by norm_num) (by norm_num) (fun _ _ => false) .nxEqD
  Mesh.empty Mesh.empty
example := C113_crack_double_refuted (nearest_isNearest (by norm_num)) (eps := 1 / 1000) (by norm_num) (by norm_num) (fun _ _ => false) .nxEqD
  Mesh.empty Mesh.empty
example := C113_box_double_refuted (nearest_isNearest (by norm_num)) (eps := 1 / 1000) (by norm_num) (by norm_num) (fun _ _ => false) .nxEqD
  Mesh.empty Mesh.empty

end Geom.TMesh
