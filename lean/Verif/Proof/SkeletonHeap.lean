import Verif.Spec.SkeletonHeap
import Verif.Base.Tac

set_option linter.unusedSectionVars false
set_option autoImplicit false

namespace Geom.SkeletonHeap

variable {M : Type}

/-- The invariant of all histories. -/
structure Inv (w : World M) : Prop where
  con : Consistent w
  mir : Mirrors w
  fresh : ∀ a, w.next ≤ a → w.node a = none

theorem Inv.uniq {w : World M} (h : Inv w) {a : Nat} {o o' : Owner} (h1 : Owns w o a) (h2 : Owns w o' a) :
    o = o' := by
  obtain ⟨n, hn⟩ := h.con.live o a h1
  exact (h.con.owner a n hn).unique h1 h2

theorem inv_empty : Inv (empty : World M) := by
  refine ⟨⟨?_, ?_, ?_, ?_⟩, ?_, ?_⟩
  · intro o a h
    cases o <;> simp [Owns, empty] at h
  · intro a n h; simp [empty] at h
  · intro s; simp [empty, List.reduceOption]
  · intro q n h; simp [empty] at h
  · intro q c n h; simp [Owns, empty] at h
  · intro a _; rfl

theorem inv_make {w : World M} (h : Inv w) (t : M) : Inv (make w t) := by
  have hno : ∀ o, ¬ Owns w o w.next := fun o ho => by
    obtain ⟨n, hn⟩ := h.con.live o _ ho
    rw [h.fresh _ le_rfl] at hn
    cases hn
  have hown : ∀ o a, Owns (make w t) o a ↔ Owns w o a ∨ (o = .client ∧ a = w.next) := by
    intro o a
    cases o with
    | client =>
      simp only [Owns, make]
      by_cases ha : a = w.next <;> simp [ha]
    | skeleton s => simp [Owns, make]
    | joint q =>
      simp only [Owns, make]
      by_cases hq : q = w.next
      · subst hq
        simp only [if_true, Option.some.injEq]
        constructor
        · rintro ⟨n, rfl, hn⟩; simp at hn
        · rintro (⟨n, hn, -⟩ | ⟨hc, -⟩)
          · rw [h.fresh _ le_rfl] at hn; cases hn
          · cases hc
      · simp [hq]
  refine ⟨⟨?_, ?_, h.con.roots, ?_⟩, ?_, ?_⟩
  · intro o a ho
    rcases (hown o a).1 ho with h1 | ⟨-, rfl⟩
    · obtain ⟨n, hn⟩ := h.con.live o a h1
      by_cases ha : a = w.next
      · exact ⟨_, by simp only [make, if_pos ha]; rfl⟩
      · exact ⟨n, by simp only [make, if_neg ha, hn]⟩
    · exact ⟨_, by simp only [make, if_true]; rfl⟩
  · intro a n hn
    by_cases ha : a = w.next
    · subst ha
      refine ⟨.client, (hown _ _).2 (Or.inr ⟨rfl, rfl⟩), fun o ho => ?_⟩
      rcases (hown _ _).1 ho with h1 | ⟨h1, -⟩
      · exact absurd h1 (hno o)
      · exact h1
    · simp only [make, if_neg ha] at hn
      obtain ⟨o, ho, hu⟩ := h.con.owner a n hn
      refine ⟨o, (hown _ _).2 (Or.inl ho), fun o' ho' => ?_⟩
      rcases (hown _ _).1 ho' with h1 | ⟨-, h1⟩
      · exact hu o' h1
      · exact absurd h1 ha
  · intro q n hn
    by_cases hq : q = w.next
    · simp only [make, if_pos hq, Option.some.injEq] at hn
      subst hn; simp [List.reduceOption]
    · simp only [make, if_neg hq] at hn
      exact h.con.subs q n hn
  · intro q c n hq hn
    rcases (hown _ _).1 hq with h1 | ⟨h1, -⟩
    · by_cases hc : c = w.next
      · subst hc; exact absurd h1 (hno _)
      · simp only [make, if_neg hc] at hn
        exact h.mir q c n h1 hn
    · cases h1
  · intro a ha
    simp only [make] at ha ⊢
    rw [if_neg (by omega), h.fresh a (by omega)]

theorem inv_setTransform {w : World M} (h : Inv w) (b : Nat) (m : Node M) (hm : w.node b = some m) (t : M) :
    Inv (setNode w b { m with transform := t }) := by
  have hown : ∀ o a, Owns (setNode w b { m with transform := t }) o a ↔ Owns w o a := by
    intro o a
    cases o with
    | client => rfl
    | skeleton s => rfl
    | joint q =>
      simp only [Owns, setNode]
      by_cases hq : q = b
      · subst hq; simp [hm]
      · simp [hq]
  have hnode : ∀ a n, (setNode w b { m with transform := t }).node a = some n →
      ∃ n', w.node a = some n' ∧ n'.parent = n.parent ∧ n'.subs = n.subs := by
    intro a n hn
    by_cases ha : a = b
    · subst ha
      simp only [setNode, if_true, Option.some.injEq] at hn
      subst hn
      exact ⟨m, hm, rfl, rfl⟩
    · simp only [setNode, if_neg ha] at hn
      exact ⟨n, hn, rfl, rfl⟩
  refine ⟨⟨?_, ?_, h.con.roots, ?_⟩, ?_, ?_⟩
  · intro o a ho
    obtain ⟨n, hn⟩ := h.con.live o a ((hown o a).1 ho)
    by_cases ha : a = b
    · exact ⟨_, by simp only [setNode, if_pos ha]; rfl⟩
    · exact ⟨n, by simp only [setNode, if_neg ha, hn]⟩
  · intro a n hn
    obtain ⟨n', h1, -⟩ := hnode a n hn
    simp only [hown]
    exact h.con.owner a n' h1
  · intro q n hn
    obtain ⟨n', h1, -, h2⟩ := hnode q n hn
    rw [← h2]; exact h.con.subs q n' h1
  · intro q c n hq hn
    obtain ⟨n', h1, h2, -⟩ := hnode c n hn
    rw [← h2]; exact h.mir q c n' ((hown _ _).1 hq) h1
  · intro a ha
    have : a ≠ b := by
      rintro rfl
      rw [h.fresh a ha] at hm; cases hm
    simp only [setNode, if_neg this]
    exact h.fresh a ha

theorem nodup_reduce_append {l : List (Option Nat)} (hl : l.reduceOption.Nodup) (a : Nat)
    (ha : some a ∉ l) : (l ++ [some a]).reduceOption.Nodup := by
  rw [List.reduceOption_append, List.reduceOption_singleton, Option.toList_some]
  rw [List.nodup_append]
  refine ⟨hl, by simp, ?_⟩
  intro x hx y hy
  simp only [List.mem_singleton] at hy
  subst hy
  rintro rfl
  exact ha (List.reduceOption_mem_iff.1 hx)

theorem inv_addRoot {w : World M} (h : Inv w) (s b : Nat) (hb : w.client b) :
    Inv (setClient (setRoots w s (w.roots s ++ [some b])) b False) := by
  have hown : ∀ o a, Owns (setClient (setRoots w s (w.roots s ++ [some b])) b False) o a ↔
      (a ≠ b ∧ Owns w o a) ∨ (a = b ∧ o = .skeleton s) := by
    intro o a
    cases o with
    | client =>
      simp only [Owns, setClient, setRoots]
      by_cases ha : a = b <;> simp [ha]
    | skeleton r =>
      have hno : some b ∉ w.roots r := fun hr => by
        have := h.uniq (o := .client) (o' := .skeleton r) hb hr
        cases this
      simp only [Owns, setClient, setRoots]
      by_cases hr : r = s
      · subst hr
        simp only [if_true, List.mem_append, List.mem_singleton, Option.some.injEq, and_true]
        constructor
        · rintro (h1 | h1)
          · exact Or.inl ⟨fun hab => hno (hab ▸ h1), h1⟩
          · exact Or.inr h1
        · rintro (⟨-, h1⟩ | h1)
          · exact Or.inl h1
          · exact Or.inr h1
      · simp only [Owner.skeleton.injEq, hr, and_false, or_false]
        exact ⟨fun h1 => ⟨fun hab => hno (hab ▸ h1), h1⟩, fun h1 => h1.2⟩
    | joint q =>
      have hno : ¬ Owns w (.joint q) b := fun hr => by
        have := h.uniq (o := .client) (o' := .joint q) hb hr
        cases this
      simp only [reduceCtorEq, and_false, or_false]
      exact ⟨fun h1 => ⟨fun hab => hno (hab ▸ h1), h1⟩, fun h1 => h1.2⟩
  refine ⟨⟨?_, ?_, ?_, h.con.subs⟩, ?_, h.fresh⟩
  · intro o a ho
    rcases (hown o a).1 ho with ⟨-, h1⟩ | ⟨rfl, -⟩
    · exact h.con.live o a h1
    · exact h.con.live .client a hb
  · intro a n hn
    by_cases ha : a = b
    · refine ⟨.skeleton s, (hown _ _).2 (Or.inr ⟨ha, rfl⟩), fun o ho => ?_⟩
      rcases (hown _ _).1 ho with ⟨h1, -⟩ | ⟨-, h1⟩
      · exact absurd ha h1
      · exact h1
    · obtain ⟨o, ho, hu⟩ := h.con.owner a n hn
      refine ⟨o, (hown _ _).2 (Or.inl ⟨ha, ho⟩), fun o' ho' => ?_⟩
      rcases (hown _ _).1 ho' with ⟨-, h1⟩ | ⟨h1, -⟩
      · exact hu o' h1
      · exact absurd h1 ha
  · intro r
    simp only [setClient, setRoots]
    split_ifs with hr
    · refine nodup_reduce_append (h.con.roots s) b fun hr => ?_
      have := h.uniq (o := .client) (o' := .skeleton s) hb hr
      cases this
    · exact h.con.roots r
  · intro q c n hq hn
    rcases (hown _ _).1 hq with ⟨-, h1⟩ | ⟨-, h1⟩
    · exact h.mir q c n h1 hn
    · cases h1

theorem inv_addSub {w : World M} (h : Inv w) (q b : Nat) (hb : w.client b) (n : Node M)
    (hn : w.node b = some n) (m : Node M)
    (hm : (setNode w b { n with parent := some q }).node q = some m) :
    Inv (setClient (setNode (setNode w b { n with parent := some q }) q
      { m with subs := m.subs ++ [some b] }) b False) := by
  set w' := setClient (setNode (setNode w b { n with parent := some q }) q
      { m with subs := m.subs ++ [some b] }) b False with hw'
  -- the old node of `q`
  obtain ⟨m0, hm0, hms⟩ : ∃ m0, w.node q = some m0 ∧ m0.subs = m.subs := by
    by_cases hqb : q = b
    · subst hqb
      simp only [setNode, if_true, Option.some.injEq] at hm
      subst hm
      exact ⟨n, hn, rfl⟩
    · simp only [setNode, if_neg hqb] at hm
      exact ⟨m, hm, rfl⟩
  have hnode : ∀ x n', w'.node x = some n' → ∃ n0, w.node x = some n0 ∧
      (x = q → n'.subs = n0.subs ++ [some b]) ∧ (x ≠ q → n'.subs = n0.subs) ∧
      (x = b → n'.parent = some q) ∧ (x ≠ b → n'.parent = n0.parent) := by
    intro x n' hx
    by_cases hxq : x = q
    · subst hxq
      simp only [hw', setClient, setNode, if_true, Option.some.injEq] at hx
      subst hx
      refine ⟨m0, hm0, fun _ => by simp [hms], fun h => absurd rfl h, ?_, ?_⟩
      · intro hxb
        subst hxb
        simp only [setNode, if_true, Option.some.injEq] at hm
        subst hm; rfl
      · intro hxb
        simp only [setNode, if_neg hxb] at hm
        rw [hm0] at hm
        cases hm; rfl
    · by_cases hxb : x = b
      · subst hxb
        simp only [hw', setClient, setNode, if_neg hxq, if_true, Option.some.injEq] at hx
        subst hx
        exact ⟨n, hn, fun h => absurd h hxq, fun _ => rfl, fun _ => rfl, fun h => absurd rfl h⟩
      · simp only [hw', setClient, setNode, if_neg hxq, if_neg hxb] at hx
        exact ⟨n', hx, fun h => absurd h hxq, fun _ => rfl, fun h => absurd h hxb, fun _ => rfl⟩
  have hlive : ∀ x n0, w.node x = some n0 → ∃ n', w'.node x = some n' := by
    intro x n0 hx
    simp only [hw', setClient, setNode]
    split_ifs
    · exact ⟨_, rfl⟩
    · exact ⟨_, rfl⟩
    · exact ⟨n0, hx⟩
  have hno : ∀ o, o ≠ .client → ¬ Owns w o b := fun o ho hr => ho (h.uniq hr (o' := .client) hb)
  have hown : ∀ o a, Owns w' o a ↔ (a ≠ b ∧ Owns w o a) ∨ (a = b ∧ o = .joint q) := by
    intro o a
    cases o with
    | client =>
      simp only [Owns, hw', setClient, setNode]
      by_cases ha : a = b <;> simp [ha]
    | skeleton s =>
      have := hno (.skeleton s) (by simp)
      simp only [reduceCtorEq, and_false, or_false]
      exact ⟨fun h1 => ⟨fun hab => this (hab ▸ h1), h1⟩, fun h1 => h1.2⟩
    | joint r =>
      have hnb := hno (.joint r) (by simp)
      constructor
      · rintro ⟨n', h1, h2⟩
        obtain ⟨n0, g1, g2, g3, -, -⟩ := hnode r n' h1
        by_cases hr : r = q
        · rw [g2 hr, List.mem_append] at h2
          rcases h2 with h2 | h2
          · have : Owns w (.joint r) a := ⟨n0, g1, h2⟩
            exact Or.inl ⟨fun hab => hnb (hab ▸ this), this⟩
          · simp only [List.mem_singleton, Option.some.injEq] at h2
            exact Or.inr ⟨h2, by rw [hr]⟩
        · rw [g3 hr] at h2
          have : Owns w (.joint r) a := ⟨n0, g1, h2⟩
          exact Or.inl ⟨fun hab => hnb (hab ▸ this), this⟩
      · rintro (⟨-, n0, h1, h2⟩ | ⟨rfl, h1⟩)
        · obtain ⟨n', hn'⟩ := hlive r n0 h1
          obtain ⟨n1, g1, g2, g3, -, -⟩ := hnode r n' hn'
          rw [h1] at g1
          cases g1
          refine ⟨n', hn', ?_⟩
          by_cases hr : r = q
          · rw [g2 hr]; simp [h2]
          · rw [g3 hr]; exact h2
        · cases h1
          obtain ⟨n', hn'⟩ := hlive q m0 hm0
          obtain ⟨n1, g1, g2, -, -, -⟩ := hnode q n' hn'
          exact ⟨n', hn', by rw [g2 rfl]; simp⟩
  refine ⟨⟨?_, ?_, h.con.roots, ?_⟩, ?_, ?_⟩
  · intro o a ho
    rcases (hown o a).1 ho with ⟨-, h1⟩ | ⟨rfl, -⟩
    · obtain ⟨n0, hn0⟩ := h.con.live o a h1
      exact hlive a n0 hn0
    · exact hlive a n hn
  · intro a n' hn'
    by_cases ha : a = b
    · refine ⟨.joint q, (hown _ _).2 (Or.inr ⟨ha, rfl⟩), fun o ho => ?_⟩
      rcases (hown _ _).1 ho with ⟨h1, -⟩ | ⟨-, h1⟩
      · exact absurd ha h1
      · exact h1
    · obtain ⟨n0, g1, -⟩ := hnode a n' hn'
      obtain ⟨o, ho, hu⟩ := h.con.owner a n0 g1
      refine ⟨o, (hown _ _).2 (Or.inl ⟨ha, ho⟩), fun o' ho' => ?_⟩
      rcases (hown _ _).1 ho' with ⟨-, h1⟩ | ⟨h1, -⟩
      · exact hu o' h1
      · exact absurd h1 ha
  · intro r n' hn'
    obtain ⟨n0, g1, g2, g3, -, -⟩ := hnode r n' hn'
    by_cases hr : r = q
    · rw [g2 hr]
      exact nodup_reduce_append (h.con.subs r n0 g1) b fun hx => hno (.joint r) (by simp) ⟨n0, g1, hx⟩
    · rw [g3 hr]; exact h.con.subs r n0 g1
  · intro r c n' hr hn'
    obtain ⟨n0, g1, -, -, g4, g5⟩ := hnode c n' hn'
    rcases (hown _ _).1 hr with ⟨h1, h2⟩ | ⟨h1, h2⟩
    · rw [g5 h1]; exact h.mir r c n0 h2 g1
    · rw [g4 h1]; cases h2; rfl
  · intro a ha
    have hab : a ≠ b := by
      rintro rfl
      have := h.fresh a ha
      rw [hn] at this; cases this
    have haq : a ≠ q := by
      rintro rfl
      have := h.fresh a ha
      rw [hm0] at this; cases this
    simp only [hw', setClient, setNode, if_neg haq, if_neg hab]
    exact h.fresh a ha

/-! ### Destruction -/

theorem destroy_node {w : World M} {b x : Nat} {n : Node M} :
    (destroy w b).node x = some n ↔ ¬ Reach w b x ∧ w.node x = some n := by
  simp only [destroy]
  split_ifs with h <;> simp [h]

/-- A joint that is destroyed with `b` is `b` or owned by a destroyed joint. -/
theorem reach_owner {w : World M} {b x : Nat} (h : Reach w b x) :
    x = b ∨ ∃ q, Reach w b q ∧ Owns w (.joint q) x := by
  cases h with
  | refl => exact Or.inl rfl
  | step h n hn hc => exact Or.inr ⟨_, h, n, hn, hc⟩

/-- Owners which survive own nothing that is destroyed, except `b` itself. -/
theorem owns_survivor {w : World M} (hi : Inv w) {b x : Nat} {o : Owner} (ho : Owns w o x)
    (hs : ∀ q, o = .joint q → ¬ Reach w b q) (hx : Reach w b x) : x = b := by
  rcases reach_owner hx with h | ⟨q, h1, h2⟩
  · exact h
  · exact absurd h1 (hs q (hi.uniq ho h2))

theorem inv_drop {w : World M} (h : Inv w) (b : Nat) (hb : w.client b) :
    Inv (setClient (destroy w b) b False) := by
  have hown : ∀ o a, Owns (setClient (destroy w b) b False) o a ↔ ¬ Reach w b a ∧ Owns w o a := by
    intro o a
    constructor
    · intro ho
      have h0 : Owns w o a ∧ a ≠ b := by
        cases o with
        | client =>
          simp only [Owns, setClient] at ho
          split_ifs at ho with hab
          exact ⟨ho, hab⟩
        | skeleton s =>
          refine ⟨ho, fun hab => ?_⟩
          subst hab
          have := h.uniq (o := .client) hb (o' := .skeleton s) ho
          cases this
        | joint q =>
          obtain ⟨n, h1, h2⟩ := ho
          have hq := (destroy_node.1 h1)
          refine ⟨⟨n, hq.2, h2⟩, fun hab => ?_⟩
          subst hab
          have := h.uniq (o := .client) hb (o' := .joint q) ⟨n, hq.2, h2⟩
          cases this
      refine ⟨fun hr => h0.2 (owns_survivor h h0.1 ?_ hr), h0.1⟩
      rintro q rfl hq
      obtain ⟨n, h1, h2⟩ := ho
      exact (destroy_node.1 h1).1 hq
    · rintro ⟨hr, ho⟩
      cases o with
      | client =>
        simp only [Owns, setClient]
        rw [if_neg]
        · exact ho
        · rintro rfl; exact hr (.refl _)
      | skeleton s => exact ho
      | joint q =>
        obtain ⟨n, h1, h2⟩ := ho
        refine ⟨n, destroy_node.2 ⟨fun hq => hr (.step hq n h1 h2), h1⟩, h2⟩
  refine ⟨⟨?_, ?_, h.con.roots, ?_⟩, ?_, ?_⟩
  · intro o a ho
    obtain ⟨h1, h2⟩ := (hown o a).1 ho
    obtain ⟨n, hn⟩ := h.con.live o a h2
    exact ⟨n, destroy_node.2 ⟨h1, hn⟩⟩
  · intro a n hn
    obtain ⟨h1, h2⟩ := destroy_node.1 hn
    obtain ⟨o, ho, hu⟩ := h.con.owner a n h2
    exact ⟨o, (hown _ _).2 ⟨h1, ho⟩, fun o' ho' => hu o' ((hown _ _).1 ho').2⟩
  · intro q n hn
    exact h.con.subs q n (destroy_node.1 hn).2
  · intro q c n hq hn
    exact h.mir q c n ((hown _ _).1 hq).2 (destroy_node.1 hn).2
  · intro a ha
    cases hn : (setClient (destroy w b) b False).node a with
    | none => rfl
    | some n =>
      have := (destroy_node.1 hn).2
      rw [h.fresh a ha] at this; cases this

/-! ### Remove -/

/-- Splitting a pointer list at the first occurrence of a joint. -/
theorem split_list {l : List (Option Nat)} {a : Nat} (h : l.idxOf (some a) < l.length) :
    ∃ pre post, l = pre ++ some a :: post ∧ l.idxOf (some a) = pre.length ∧
      l.eraseIdx (l.idxOf (some a)) = pre ++ post := by
  refine ⟨l.take (l.idxOf (some a)), l.drop (l.idxOf (some a) + 1), ?_, ?_, ?_⟩
  · have hget : l[l.idxOf (some a)] = some a := List.getElem_idxOf h
    conv_lhs => rw [← List.take_append_drop (l.idxOf (some a)) l, List.drop_eq_getElem_cons h, hget]
  · rw [List.length_take]; omega
  · rw [List.eraseIdx_eq_take_drop_succ]

theorem reduce_cons_some (l : List (Option Nat)) (a : Nat) :
    List.reduceOption (some a :: l) = a :: l.reduceOption := by simp [List.reduceOption]

theorem reduce_cons_none (l : List (Option Nat)) :
    List.reduceOption (none :: l) = l.reduceOption := by simp [List.reduceOption]

/-- The new list of a remove function: what it still contains. -/
theorem removed_list {l : List (Option Nat)} {a : Nat} {p : Option Nat}
    (hd : l.reduceOption.Nodup) (hi : l.idxOf (some a) < l.length)
    (hp : (l.eraseIdx (l.idxOf (some a)))[l.idxOf (some a)]? = some p) :
    let l' := (l.eraseIdx (l.idxOf (some a))).set (l.idxOf (some a)) none
    l'.reduceOption.Nodup ∧ p ≠ some a ∧ (∀ c, p = some c → some c ∈ l) ∧ some a ∈ l ∧
      ∀ x, some x ∈ l' ↔ some x ∈ l ∧ x ≠ a ∧ some x ≠ p := by
  obtain ⟨pre, post, h1, h2, h3⟩ := split_list hi
  rw [h2] at h3 hp
  rw [h3] at hp
  rw [List.getElem?_append_right le_rfl, Nat.sub_self] at hp
  cases post with
  | nil => simp at hp
  | cons p' post =>
    simp only [List.getElem?_cons_zero, Option.some.injEq] at hp
    subst hp
    have hl' : (l.eraseIdx (l.idxOf (some a))).set (l.idxOf (some a)) none = pre ++ none :: post := by
      rw [h2, h3, List.set_append_right _ _ le_rfl, Nat.sub_self, List.set_cons_zero]
    simp only [hl']
    rw [h1] at hd
    rw [List.reduceOption_append, reduce_cons_some] at hd
    have hd' : (pre.reduceOption ++ a :: (List.reduceOption (p' :: post))).Nodup := hd
    have key : ∀ x, some x ∈ pre → x ≠ a ∧ some x ≠ p' := by
      intro x hx
      have hx' := List.reduceOption_mem_iff.2 hx
      rw [List.nodup_append] at hd'
      have := hd'.2.2 x hx'
      constructor
      · rintro rfl; exact this _ (by simp) rfl
      · rintro rfl
        exact this x (by rw [reduce_cons_some]; simp) rfl
    have key2 : ∀ x, some x ∈ post → x ≠ a ∧ some x ≠ p' := by
      intro x hx
      have hx' := List.reduceOption_mem_iff.2 hx
      rw [List.nodup_append, List.nodup_cons] at hd'
      constructor
      · rintro rfl
        apply hd'.2.1.1
        exact List.reduceOption_mem_iff.2 (by simp [hx])
      · rintro rfl
        have := hd'.2.1.2
        rw [reduce_cons_some, List.nodup_cons] at this
        exact this.1 hx'
    refine ⟨?_, ?_, ?_, by rw [h1]; simp, ?_⟩
    · rw [List.reduceOption_append, reduce_cons_none]
      refine List.Nodup.sublist ?_ hd'
      refine List.Sublist.append_left ?_ _
      refine List.Sublist.cons _ ?_
      cases p' with
      | none => rw [reduce_cons_none]
      | some c => rw [reduce_cons_some]; exact List.sublist_cons_self _ _
    · rintro rfl
      rw [List.nodup_append, List.nodup_cons] at hd'
      apply hd'.2.1.1
      rw [reduce_cons_some]; simp
    · rintro c rfl
      rw [h1]; simp
    · intro x
      rw [h1]
      simp only [List.mem_append, List.mem_cons, reduceCtorEq, false_or]
      constructor
      · rintro (hx | hx)
        · exact ⟨Or.inl hx, key x hx⟩
        · exact ⟨Or.inr (Or.inr (Or.inr hx)), key2 x hx⟩
      · rintro ⟨hx | hx | hx | hx, n1, n2⟩
        · exact Or.inl hx
        · exact absurd (by simpa using hx) n1
        · exact absurd hx n2
        · exact Or.inr hx

/-- The state after a remove function: the owner `o0` of `a` has lost `a`, which is destroyed, and
`p`, which went to the client. -/
theorem inv_removed {w w' : World M} (h : Inv w) (o0 : Owner) (a : Nat) (p : Option Nat)
    (ha : Owns w o0 a) (hpa : p ≠ some a) (hpo : ∀ c, p = some c → Owns w o0 c)
    (hs : ∀ q, o0 = .joint q → ¬ Reach w a q)
    (hown : ∀ o x, Owns w' o x ↔ ¬ Reach w a x ∧ (some x ≠ p ∧ Owns w o x ∨ some x = p ∧ o = .client))
    (hnode : ∀ x n', w'.node x = some n' → ∃ n, w.node x = some n ∧ ¬ Reach w a x ∧
      n'.parent = n.parent ∧ n'.subs.reduceOption.Nodup)
    (hlive : ∀ x n, w.node x = some n → ¬ Reach w a x → ∃ n', w'.node x = some n')
    (hroots : ∀ s, (w'.roots s).reduceOption.Nodup) (hnext : w'.next = w.next) : Inv w' := by
  have hpr : ∀ c, p = some c → ¬ Reach w a c := by
    intro c hc hr
    have := owns_survivor h (hpo c hc) hs hr
    exact hpa (by rw [hc, this])
  refine ⟨⟨?_, ?_, hroots, ?_⟩, ?_, ?_⟩
  · intro o x ho
    obtain ⟨h1, h2⟩ := (hown o x).1 ho
    rcases h2 with ⟨-, h2⟩ | ⟨h2, -⟩
    · obtain ⟨n, hn⟩ := h.con.live o x h2
      exact hlive x n hn h1
    · obtain ⟨n, hn⟩ := h.con.live o0 x (hpo x h2.symm)
      exact hlive x n hn h1
  · intro x n' hn'
    obtain ⟨n, hn, hr, -⟩ := hnode x n' hn'
    by_cases hx : some x = p
    · refine ⟨.client, (hown _ _).2 ⟨hr, Or.inr ⟨hx, rfl⟩⟩, fun o ho => ?_⟩
      rcases ((hown _ _).1 ho).2 with ⟨h1, -⟩ | ⟨-, h1⟩
      · exact absurd hx h1
      · exact h1
    · obtain ⟨o, ho, hu⟩ := h.con.owner x n hn
      refine ⟨o, (hown _ _).2 ⟨hr, Or.inl ⟨hx, ho⟩⟩, fun o' ho' => ?_⟩
      rcases ((hown _ _).1 ho').2 with ⟨-, h1⟩ | ⟨h1, -⟩
      · exact hu o' h1
      · exact absurd h1 hx
  · intro q n' hn'
    obtain ⟨n, -, -, -, h1⟩ := hnode q n' hn'
    exact h1
  · intro q c n' hq hn'
    obtain ⟨n, hn, -, hp, -⟩ := hnode c n' hn'
    rcases ((hown _ _).1 hq).2 with ⟨-, h1⟩ | ⟨-, h1⟩
    · rw [hp]; exact h.mir q c n h1 hn
    · cases h1
  · intro x hx
    cases hn' : w'.node x with
    | none => rfl
    | some n' =>
      obtain ⟨n, hn, -⟩ := hnode x n' hn'
      rw [h.fresh x (by omega)] at hn; cases hn

theorem give_node (w : World M) (p : Option Nat) : (give w p).node = w.node := by cases p <;> rfl
theorem give_roots (w : World M) (p : Option Nat) : (give w p).roots = w.roots := by cases p <;> rfl
theorem give_next (w : World M) (p : Option Nat) : (give w p).next = w.next := by cases p <;> rfl
theorem give_client (w : World M) (p : Option Nat) (x : Nat) :
    (give w p).client x ↔ some x = p ∨ w.client x := by
  cases p with
  | none => simp [give]
  | some c =>
    simp only [give, setClient, Option.some.injEq]
    by_cases hx : x = c <;> simp [hx]

theorem inv_removeRoot {w w' : World M} (h : Inv w) (s a : Nat) (hr : removeRootJoint w s a = .ok w') :
    Inv w' := by
  simp only [removeRootJoint] at hr
  split_ifs at hr with hi
  · cases hp : ((w.roots s).eraseIdx ((w.roots s).idxOf (some a)))[(w.roots s).idxOf (some a)]? with
    | none => rw [hp] at hr; cases hr
    | some p =>
      rw [hp] at hr
      simp only [Res.ok.injEq] at hr
      obtain ⟨l1, l2, l3, l4, l5⟩ := removed_list (h.con.roots s) hi hp
      have ho : Owns w (.skeleton s) a := l4
      have hpo : ∀ c, p = some c → Owns w (.skeleton s) c := l3
      have hs : ∀ q, Owner.skeleton s = .joint q → ¬ Reach w a q := fun q hq => by cases hq
      have hsurv : ∀ o x, Owns w o x → (∀ q, o = .joint q → ¬ Reach w a q) → x ≠ a → ¬ Reach w a x :=
        fun o x h1 h2 h3 h4 => h3 (owns_survivor h h1 h2 h4)
      refine inv_removed h (.skeleton s) a p ho l2 hpo hs ?_ ?_ ?_ ?_ ?_
      · intro o x
        subst hr
        cases o with
        | client =>
          simp only [Owns, give_client, and_true]
          constructor
          · rintro (hx | hx)
            · exact ⟨hsurv _ _ (hpo x hx.symm) hs (fun hxa => l2 (by rw [← hx, hxa])), Or.inr hx⟩
            · have hx' : Owns w .client x := hx
              have hxp : some x ≠ p := fun hxp => by
                have := h.uniq (hpo x hxp.symm) hx'
                cases this
              have hxa : x ≠ a := fun hxa => by
                have := h.uniq (hxa ▸ ho) hx'
                cases this
              exact ⟨hsurv _ _ hx' (by simp) hxa, Or.inl ⟨hxp, hx'⟩⟩
          · rintro ⟨-, ⟨-, hx⟩ | hx⟩
            · exact Or.inr hx
            · exact Or.inl hx
        | skeleton r =>
          simp only [Owns, give_roots, setRoots, reduceCtorEq, and_false, or_false]
          by_cases hrs : r = s
          · subst hrs
            simp only [if_true]
            rw [l5]
            constructor
            · rintro ⟨x1, x2, x3⟩
              exact ⟨hsurv (.skeleton r) _ x1 hs x2, x3, x1⟩
            · rintro ⟨x1, x2, x3⟩
              exact ⟨x3, fun hxa => x1 (hxa ▸ .refl _), x2⟩
          · simp only [if_neg hrs]
            constructor
            · intro hx
              have hx' : Owns w (.skeleton r) x := hx
              have hxp : some x ≠ p := fun hxp => by
                have := h.uniq (hpo x hxp.symm) hx'
                simp only [Owner.skeleton.injEq] at this
                exact hrs this.symm
              have hxa : x ≠ a := fun hxa => by
                have := h.uniq (hxa ▸ ho) hx'
                simp only [Owner.skeleton.injEq] at this
                exact hrs this.symm
              exact ⟨hsurv _ _ hx' (by simp) hxa, hxp, hx'⟩
            · rintro ⟨-, -, hx⟩; exact hx
        | joint q =>
          simp only [Owns, give_node, setRoots, reduceCtorEq, and_false, or_false]
          constructor
          · rintro ⟨n, hn, hx⟩
            obtain ⟨g1, g2⟩ := destroy_node.1 hn
            have hx' : Owns w (.joint q) x := ⟨n, g2, hx⟩
            have hxp : some x ≠ p := fun hxp => by
              have := h.uniq (hpo x hxp.symm) hx'
              cases this
            have hxa : x ≠ a := fun hxa => by
              have := h.uniq (hxa ▸ ho) hx'
              cases this
            exact ⟨hsurv _ _ hx' (fun q' hq' => by cases hq'; exact g1) hxa, hxp, n, g2, hx⟩
          · rintro ⟨hx, -, n, hn, hc⟩
            exact ⟨n, destroy_node.2 ⟨fun hq => hx (.step hq n hn hc), hn⟩, hc⟩
      · intro x n' hn'
        subst hr
        rw [give_node] at hn'
        obtain ⟨g1, g2⟩ := destroy_node.1 hn'
        exact ⟨n', g2, g1, rfl, h.con.subs x n' g2⟩
      · intro x n hn hx
        subst hr
        rw [give_node]
        exact ⟨n, destroy_node.2 ⟨hx, hn⟩⟩
      · intro r
        subst hr
        rw [give_roots]
        simp only [setRoots]
        split_ifs with hrs
        · exact l1
        · exact h.con.roots r
      · subst hr; rw [give_next]; rfl
  · simp only [Res.ok.injEq] at hr
    subst hr; exact h

theorem inv_removeSub {w w' : World M} (h : Inv w) (q a : Nat) (hr : removeSubJoint w q a = .ok w') :
    Inv w' := by
  cases hm : w.node q with
  | none => simp [removeSubJoint, hm] at hr
  | some m =>
    simp only [removeSubJoint, hm] at hr
    split_ifs at hr with hi hreach
    · cases hp : (m.subs.eraseIdx (m.subs.idxOf (some a)))[m.subs.idxOf (some a)]? with
      | none => rw [hp] at hr; cases hr
      | some p =>
        rw [hp] at hr
        simp only [Res.ok.injEq] at hr
        obtain ⟨l1, l2, l3, l4, l5⟩ := removed_list (h.con.subs q m hm) hi hp
        have ho : Owns w (.joint q) a := ⟨m, hm, l4⟩
        have hpo : ∀ c, p = some c → Owns w (.joint q) c := fun c hc => ⟨m, hm, l3 c hc⟩
        have hs : ∀ q', Owner.joint q = .joint q' → ¬ Reach w a q' := fun q' hq => by cases hq; exact hreach
        have hsurv : ∀ o x, Owns w o x → (∀ q, o = .joint q → ¬ Reach w a q) → x ≠ a → ¬ Reach w a x :=
          fun o x h1 h2 h3 h4 => h3 (owns_survivor h h1 h2 h4)
        refine inv_removed h (.joint q) a p ho l2 hpo hs ?_ ?_ ?_ ?_ ?_
        · intro o x
          subst hr
          cases o with
          | client =>
            simp only [Owns, give_client, and_true]
            constructor
            · rintro (hx | hx)
              · exact ⟨hsurv _ _ (hpo x hx.symm) hs (fun hxa => l2 (by rw [← hx, hxa])), Or.inr hx⟩
              · have hx' : Owns w .client x := hx
                have hxp : some x ≠ p := fun hxp => by
                  have := h.uniq (hpo x hxp.symm) hx'
                  cases this
                have hxa : x ≠ a := fun hxa => by
                  have := h.uniq (hxa ▸ ho) hx'
                  cases this
                exact ⟨hsurv _ _ hx' (by simp) hxa, Or.inl ⟨hxp, hx'⟩⟩
            · rintro ⟨-, ⟨-, hx⟩ | hx⟩
              · exact Or.inr hx
              · exact Or.inl hx
          | skeleton r =>
            simp only [Owns, give_roots, setNode, reduceCtorEq, and_false, or_false]
            constructor
            · intro hx
              have hx' : Owns w (.skeleton r) x := hx
              have hxp : some x ≠ p := fun hxp => by
                have := h.uniq (hpo x hxp.symm) hx'
                cases this
              have hxa : x ≠ a := fun hxa => by
                have := h.uniq (hxa ▸ ho) hx'
                cases this
              exact ⟨hsurv _ _ hx' (by simp) hxa, hxp, hx'⟩
            · rintro ⟨-, -, hx⟩; exact hx
          | joint r =>
            simp only [Owns, give_node, reduceCtorEq, and_false, or_false]
            by_cases hrq : r = q
            · subst hrq
              simp only [setNode, if_true, Option.some.injEq]
              constructor
              · rintro ⟨n, rfl, hx⟩
                obtain ⟨x1, x2, x3⟩ := (l5 x).1 hx
                exact ⟨hsurv (.joint r) _ ⟨m, hm, x1⟩ hs x2, x3, m, hm, x1⟩
              · rintro ⟨x1, x2, n, hn, x3⟩
                rw [hm] at hn
                cases hn
                exact ⟨_, rfl, (l5 x).2 ⟨x3, fun hxa => x1 (hxa ▸ .refl _), x2⟩⟩
            · simp only [setNode, if_neg hrq]
              constructor
              · rintro ⟨n, hn, hx⟩
                obtain ⟨g1, g2⟩ := destroy_node.1 hn
                have hx' : Owns w (.joint r) x := ⟨n, g2, hx⟩
                have hxp : some x ≠ p := fun hxp => by
                  have := h.uniq (hpo x hxp.symm) hx'
                  simp only [Owner.joint.injEq] at this
                  exact hrq this.symm
                have hxa : x ≠ a := fun hxa => by
                  have := h.uniq (hxa ▸ ho) hx'
                  simp only [Owner.joint.injEq] at this
                  exact hrq this.symm
                exact ⟨hsurv _ _ hx' (fun q' hq' => by cases hq'; exact g1) hxa, hxp, n, g2, hx⟩
              · rintro ⟨hx, -, n, hn, hc⟩
                exact ⟨n, destroy_node.2 ⟨fun hq => hx (.step hq n hn hc), hn⟩, hc⟩
        · intro x n' hn'
          subst hr
          rw [give_node] at hn'
          by_cases hxq : x = q
          · subst hxq
            simp only [setNode, if_true, Option.some.injEq] at hn'
            subst hn'
            exact ⟨m, hm, hreach, rfl, l1⟩
          · simp only [setNode, if_neg hxq] at hn'
            obtain ⟨g1, g2⟩ := destroy_node.1 hn'
            exact ⟨n', g2, g1, rfl, h.con.subs x n' g2⟩
        · intro x n hn hx
          subst hr
          rw [give_node]
          by_cases hxq : x = q
          · exact ⟨_, by simp only [setNode, if_pos hxq]; rfl⟩
          · exact ⟨n, by simp only [setNode, if_neg hxq]; exact destroy_node.2 ⟨hx, hn⟩⟩
        · intro r
          subst hr
          rw [give_roots]
          exact h.con.roots r
        · subst hr; rw [give_next]; rfl
    · simp only [Res.ok.injEq] at hr
      subst hr; exact h

end Geom.SkeletonHeap
