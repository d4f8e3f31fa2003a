import Verif.Proof.SkeletonHeap

/-!
Property C65 (ownership and parent links), and the parts of C61 and C64 which concern parent links.
-/

set_option linter.unusedSectionVars false
set_option autoImplicit false

namespace Geom.SkeletonHeap.Props

variable {M : Type}

theorem inv_next {w w' : World M} (h : Inv w) (op : Op M) (hn : next w op = .ok w') : Inv w' := by
  have hstep : step w op = .ok w' ∨ (step w op = .throw ∧ w' = w) := by
    unfold next at hn
    cases hs : step w op with
    | ok v => rw [hs] at hn; exact Or.inl hn
    | throw => rw [hs] at hn; cases hn; exact Or.inr ⟨rfl, rfl⟩
    | ub => rw [hs] at hn; cases hn
    | fuel => rw [hs] at hn; cases hn
  rcases hstep with hs | ⟨-, rfl⟩
  · cases op with
    | make t => simp only [step, Res.ok.injEq] at hs; subst hs; exact inv_make h t
    | addRoot s a =>
      simp only [step, addRootJoint] at hs
      split_ifs at hs with hc
      cases hna : w.node a with
      | none => rw [hna] at hs; cases hs
      | some n =>
        rw [hna] at hs
        simp only at hs
        split_ifs at hs with hp
        cases hs
        exact inv_addRoot h s a hc
    | addSub q a =>
      simp only [step, addSubJoint] at hs
      split_ifs at hs with hc
      cases hna : w.node a with
      | none => rw [hna] at hs; cases hs
      | some n =>
        rw [hna] at hs
        simp only at hs
        split_ifs at hs with hp
        cases hm : (setNode w a { n with parent := some q }).node q with
        | none => rw [hm] at hs; cases hs
        | some m =>
          rw [hm] at hs
          cases hs
          exact inv_addSub h q a hc n hna m hm
    | removeRoot s a => exact inv_removeRoot h s a hs
    | removeSub q a => exact inv_removeSub h q a hs
    | drop a =>
      simp only [step, drop] at hs
      split_ifs at hs with hc
      cases hs
      exact inv_drop h a hc
    | setTransform a t =>
      simp only [step, setTransform] at hs
      cases hna : w.node a with
      | none => rw [hna] at hs; cases hs
      | some n => rw [hna] at hs; cases hs; exact inv_setTransform h a n hna t
  · exact h

theorem inv_run {w w' : World M} (h : Inv w) (ops : List (Op M)) (hr : run w ops = .ok w') : Inv w' := by
  induction ops generalizing w with
  | nil => simp only [run, Res.ok.injEq] at hr; subst hr; exact h
  | cons op ops ih =>
    simp only [run] at hr
    obtain ⟨v, h1, h2⟩ := Res.bind_eq_ok.1 hr
    exact ih (inv_next h op h1) h2

/-- C65: after each history (which may also contain the remove functions, destruction by the client
and writes to the transformation) each live joint has exactly one owner, only live joints are owned,
and the parent link of each sub joint is its owner. -/
theorem C65_ownership (ops : List (Op M)) (w : World M) (h : run empty ops = .ok w) :
    Consistent w ∧ Mirrors w :=
  ⟨(inv_run inv_empty ops h).con, (inv_run inv_empty ops h).mir⟩

/-- Joints with a parent are rejected by both functions. (The exception is raised before any change,
`next`.) -/
theorem C65_rejected (w : World M) (a : Nat) (n : Node M) (hc : w.client a) (hn : w.node a = some n)
    (hp : n.parent ≠ none) (s q : Nat) :
    addRootJoint w s a = .throw ∧ addSubJoint w q a = .throw ∧
      next w (.addRoot s a) = .ok w ∧ next w (.addSub q a) = .ok w := by
  have : n.parent.isSome = true := by
    cases h : n.parent with
    | none => exact absurd h hp
    | some p => rfl
  have h1 : addRootJoint w s a = .throw := by simp [addRootJoint, hc, hn, this]
  have h2 : addSubJoint w q a = .throw := by simp [addSubJoint, hc, hn, this]
  exact ⟨h1, h2, by simp [next, step, h1], by simp [next, step, h2]⟩

/-- No joint held by the client or by a skeleton has a parent. -/
def Orphans (w : World M) : Prop :=
  ∀ o a n, (∀ q, o ≠ .joint q) → Owns w o a → w.node a = some n → n.parent = none

theorem orphans_next {w w' : World M} (hi : Inv w) (ho : Orphans w) (op : Op M) (hop : op.NoRemove)
    (hn : next w op = .ok w') : Orphans w' := by
  have hstep : step w op = .ok w' ∨ (step w op = .throw ∧ w' = w) := by
    unfold next at hn
    cases hs : step w op with
    | ok v => rw [hs] at hn; exact Or.inl hn
    | throw => rw [hs] at hn; cases hn; exact Or.inr ⟨rfl, rfl⟩
    | ub => rw [hs] at hn; cases hn
    | fuel => rw [hs] at hn; cases hn
  rcases hstep with hs | ⟨-, rfl⟩
  · cases op with
    | removeRoot s a => exact absurd hop id
    | removeSub q a => exact absurd hop id
    | make t =>
      simp only [step, Res.ok.injEq] at hs; subst hs
      intro o a n h1 h2 h3
      by_cases ha : a = w.next
      · simp only [make, if_pos ha, Option.some.injEq] at h3; subst h3; rfl
      · simp only [make, if_neg ha] at h3
        refine ho o a n h1 ?_ h3
        cases o with
        | client => simpa [Owns, make, ha] using h2
        | skeleton s => exact h2
        | joint q => exact absurd rfl (h1 q)
    | addRoot s b =>
      simp only [step, addRootJoint] at hs
      split_ifs at hs with hc
      cases hnb : w.node b with
      | none => rw [hnb] at hs; cases hs
      | some nb =>
        rw [hnb] at hs
        simp only at hs
        split_ifs at hs with hp
        cases hs
        intro o a n h1 h2 h3
        by_cases ha : a = b
        · subst ha
          exact ho .client a n (by simp) hc h3
        · refine ho o a n h1 ?_ h3
          cases o with
          | client => simpa [Owns, setClient, setRoots, ha] using h2
          | skeleton r =>
            simp only [Owns, setClient, setRoots] at h2 ⊢
            split_ifs at h2 with hr
            · subst hr; simpa [ha] using h2
            · exact h2
          | joint q => exact absurd rfl (h1 q)
    | addSub q b =>
      simp only [step, addSubJoint] at hs
      split_ifs at hs with hc
      cases hnb : w.node b with
      | none => rw [hnb] at hs; cases hs
      | some nb =>
        rw [hnb] at hs
        simp only at hs
        split_ifs at hs with hp
        cases hm : (setNode w b { nb with parent := some q }).node q with
        | none => rw [hm] at hs; cases hs
        | some m =>
          rw [hm] at hs
          cases hs
          intro o a n h1 h2 h3
          have ha : a ≠ b := by
            rintro rfl
            cases o with
            | client => simp [Owns, setClient] at h2
            | skeleton r =>
              have := hi.uniq (o := .skeleton r) (o' := .client) h2 hc
              cases this
            | joint q => exact absurd rfl (h1 q)
          have h2' : Owns w o a := by
            cases o with
            | client => simpa [Owns, setClient, setNode, ha] using h2
            | skeleton r => exact h2
            | joint q => exact absurd rfl (h1 q)
          by_cases haq : a = q
          · subst haq
            simp only [setNode, if_neg ha] at hm
            simp only [setClient, setNode, if_true, Option.some.injEq] at h3
            subst h3
            exact ho o a m h1 h2' hm
          · simp only [setClient, setNode, if_neg haq, if_neg ha] at h3
            exact ho o a n h1 h2' h3
    | drop b =>
      simp only [step, drop] at hs
      split_ifs at hs with hc
      cases hs
      intro o a n h1 h2 h3
      refine ho o a n h1 ?_ (destroy_node.1 h3).2
      cases o with
      | client =>
        simp only [Owns, setClient] at h2 ⊢
        split_ifs at h2 with hab
        exact h2
      | skeleton r => exact h2
      | joint q => exact absurd rfl (h1 q)
    | setTransform b t =>
      simp only [step, setTransform] at hs
      cases hnb : w.node b with
      | none => rw [hnb] at hs; cases hs
      | some nb =>
        rw [hnb] at hs; cases hs
        intro o a n h1 h2 h3
        have h2' : Owns w o a := by
          cases o with
          | client => exact h2
          | skeleton r => exact h2
          | joint q => exact absurd rfl (h1 q)
        by_cases hab : a = b
        · subst hab
          simp only [setNode, if_true, Option.some.injEq] at h3
          subst h3
          exact ho o a nb h1 h2' hnb
        · simp only [setNode, if_neg hab] at h3
          exact ho o a n h1 h2' h3
  · exact ho

/-- C65: in a history without the remove functions the joints held by clients and skeletons have no
parent. -/
theorem C65_orphans (ops : List (Op M)) (hops : ∀ op ∈ ops, op.NoRemove) (w : World M)
    (h : run empty ops = .ok w) : Orphans w := by
  have key : ∀ (ops : List (Op M)) (v : World M), (∀ op ∈ ops, op.NoRemove) → Inv v → Orphans v →
      run v ops = .ok w → Orphans w := by
    intro ops
    induction ops with
    | nil => intro v _ _ ho hr; simp only [run, Res.ok.injEq] at hr; subst hr; exact ho
    | cons op ops ih =>
      intro v hops hi ho hr
      simp only [run] at hr
      obtain ⟨u, h1, h2⟩ := Res.bind_eq_ok.1 hr
      exact ih u (fun o ho => hops o (by simp [ho])) (inv_next hi op h1)
        (orphans_next hi ho op (hops op (by simp)) h1) h2
  refine key ops empty hops inv_empty ?_ h
  intro o a n _ _ hn
  simp [empty] at hn

/-- C65: hence each add call with a joint of the client (and a live parent) is accepted, makes the
skeleton or the joint the owner, and appends the joint to its list. -/
theorem C65_add_accepted (ops : List (Op M)) (hops : ∀ op ∈ ops, op.NoRemove) (w : World M)
    (h : run empty ops = .ok w) (a : Nat) (ha : w.client a) :
    (∀ s, ∃ w', addRootJoint w s a = .ok w' ∧ w'.roots s = w.roots s ++ [some a] ∧ ¬ w'.client a) ∧
    (∀ q m, w.node q = some m → ∃ w' m', addSubJoint w q a = .ok w' ∧ w'.node q = some m' ∧
      m'.subs = m.subs ++ [some a] ∧ ¬ w'.client a) := by
  have hi := inv_run inv_empty ops h
  have ho := C65_orphans ops hops w h
  obtain ⟨n, hn⟩ := hi.con.live .client a ha
  have hp : n.parent = none := ho .client a n (by simp) ha hn
  constructor
  · intro s
    refine ⟨_, by simp only [addRootJoint, if_pos ha, hn, hp]; rfl, ?_, ?_⟩
    · simp [setClient, setRoots]
    · simp [setClient]
  · intro q m hm
    by_cases hqa : q = a
    · subst hqa
      rw [hm] at hn; cases hn
      refine ⟨_, { n with parent := some q, subs := n.subs ++ [some q] }, by
        simp only [addSubJoint, if_pos ha, hm, hp, setNode, if_true]; rfl, ?_, rfl, ?_⟩
      · simp only [setClient, if_true]
      · simp [setClient]
    · refine ⟨_, { m with subs := m.subs ++ [some a] }, by
        simp only [addSubJoint, if_pos ha, hn, hp, setNode, if_neg hqa, hm]; rfl, ?_, rfl, ?_⟩
      · simp only [setClient, if_true]
      · simp [setClient]

/-! ## GlobalTransform along the parent links -/

/-- C61: for a joint reached by ownership from a joint without parent, `GlobalTransform` ends and
multiplies the given matrix by the transformations from the root to the joint. -/
theorem C61_global_transform [Monoid M] (w : World M) (hm : Mirrors w) (r a : Nat) (nr : Node M)
    (hr : w.node r = some nr) (hp : nr.parent = none) (ts : List M) (hd : Descends w r a ts) (m : M) :
    ∃ k, ∀ fuel, k ≤ fuel → globalTransform w fuel m a = .ok (m * ts.prod) := by
  induction hd with
  | root n hn =>
    rw [hr] at hn; cases hn
    refine ⟨1, fun fuel hf => ?_⟩
    obtain ⟨f, rfl⟩ : ∃ f, fuel = f + 1 := ⟨fuel - 1, by omega⟩
    simp [globalTransform, hr, hp]
  | sub h ho n hn ih =>
    obtain ⟨k, hk⟩ := ih
    refine ⟨k + 1, fun fuel hf => ?_⟩
    obtain ⟨f, rfl⟩ : ∃ f, fuel = f + 1 := ⟨fuel - 1, by omega⟩
    simp [globalTransform, hn, hm _ _ n ho hn, hk f (by omega), mul_assoc]

/-! ## A concrete history -/

/-- Three joints 0, 1, 2: 1 and 2 are sub joints of 0, which is a root joint of skeleton 7. -/
def history : List (Op ℚ) :=
  [.make 2, .make 3, .make 5, .addSub 0 1, .addRoot 7 0, .addSub 0 2]

theorem history_ok : ∃ w, run empty history = .ok w ∧ w.roots 7 = [some 0] ∧
    w.node 0 = some ⟨none, [some 1, some 2], 2⟩ ∧ w.node 1 = some ⟨some 0, [], 3⟩ ∧
    w.node 2 = some ⟨some 0, [], 5⟩ ∧ ∀ a, 3 ≤ a → w.node a = none := by
  refine ⟨_, by
    simp [run, history, next, step, make, empty, addSubJoint, addRootJoint, setNode, setClient, setRoots]
    rfl, ?_, ?_, ?_, ?_, ?_⟩
  · simp
  · simp
  · simp
  · simp
  · intro a ha
    have h0 : a ≠ 0 := by omega
    have h1 : a ≠ 1 := by omega
    have h2 : a ≠ 2 := by omega
    simp [h0, h1, h2]

example : ∀ op ∈ history, op.NoRemove := by simp [history, Op.NoRemove]

/-- The hypotheses of `C61_global_transform` are met by joint 2 of this history. -/
example : ∃ w : World ℚ, Mirrors w ∧ Descends w 0 2 [2, 5] := by
  obtain ⟨w, h, -, h0, -, h2, -⟩ := history_ok
  refine ⟨w, (C65_ownership _ _ h).2, ?_⟩
  exact .sub (ts := [2]) (.root _ h0) ⟨_, h0, by simp⟩ _ h2

/-! ## The parent link after RemoveSubJoint (finding, C64) -/

/-- If `RemoveSubJoint(a)` returns, and `c` is the sub joint behind `a`, then the client gets `c`
instead of `a`, whose parent link still names the old owner; so `c` cannot be added anywhere. -/
theorem C64_stale_parent (w : World M) (hi : Inv w) (q a c : Nat) (m : Node M) (pre post : List (Option Nat))
    (hq : w.node q = some m) (hm : m.subs = pre ++ some a :: some c :: post) (hr : ¬ Reach w a q) :
    ∃ w' n, removeSubJoint w q a = .ok w' ∧ w'.node a = none ∧ w'.client c ∧ w'.node c = some n ∧
      n.parent = some q ∧ ∀ s r, addRootJoint w' s c = .throw ∧ addSubJoint w' r c = .throw := by
  have hnd := hi.con.subs q m hq
  rw [hm, List.reduceOption_append, reduce_cons_some, reduce_cons_some, List.nodup_append,
    List.nodup_cons, List.nodup_cons] at hnd
  have hpre : some a ∉ pre := fun hx =>
    hnd.2.2 a (List.reduceOption_mem_iff.2 hx) a (by simp) rfl
  have hidx : m.subs.idxOf (some a) = pre.length := by
    rw [hm, List.idxOf_append_of_notMem hpre]; simp
  have her : m.subs.eraseIdx pre.length = pre ++ some c :: post := by
    rw [hm, List.eraseIdx_append_of_length_le le_rfl]; simp
  have hlen : pre.length < m.subs.length := by rw [hm]; simp
  have hget : (pre ++ some c :: post)[pre.length]? = some (some c) := by simp
  have hca : c ≠ a := by
    rintro rfl
    exact hnd.2.1.1 (by simp)
  have hoc : Owns w (.joint q) c := ⟨m, hq, by rw [hm]; simp⟩
  have hoa : Owns w (.joint q) a := ⟨m, hq, by rw [hm]; simp⟩
  have hrc : ¬ Reach w a c := fun h => hca (owns_survivor hi hoc (fun q' h' => by cases h'; exact hr) h)
  obtain ⟨n, hn⟩ := hi.con.live _ c hoc
  have haq : a ≠ q := fun h => hr (h ▸ .refl _)
  let w' := give (setNode (destroy w a) q { m with subs := (pre ++ some c :: post).set pre.length none })
    (some c)
  have hw' : removeSubJoint w q a = .ok w' := by
    simp only [removeSubJoint, hq, hidx, if_pos hlen, if_neg hr, her, hget]
    rfl
  have hc' : w'.client c := by simp [w', give, setClient]
  have hinv : Inv w' := inv_removeSub hi q a hw'
  obtain ⟨n', hn'⟩ := hinv.con.live .client c hc'
  have hpar : n'.parent = some q := by
    have hmir := hi.mir q c n hoc hn
    by_cases h : c = q
    · subst h
      simp only [w', give_node, setNode, if_true, Option.some.injEq] at hn'
      subst hn'
      rw [hq] at hn; cases hn
      exact hmir
    · simp only [w', give_node, setNode, if_neg h] at hn'
      have := (destroy_node.1 hn').2
      rw [hn] at this; cases this
      exact hmir
  refine ⟨w', n', hw', ?_, hc', hn', hpar, fun s r => ?_⟩
  · simp only [w', give_node, setNode, if_neg haq, destroy]
    rw [if_pos (.refl _)]
  · have := C65_rejected w' c n' hc' hn' (by rw [hpar]; simp) s r
    exact ⟨this.1, this.2.1⟩

/-- The history above, followed by `RemoveSubJoint(1)` of joint 0, meets the hypotheses. -/
example : ∃ w : World ℚ, Inv w ∧ w.node 0 = some ⟨none, [] ++ some 1 :: some 2 :: [], 2⟩ ∧ ¬ Reach w 1 0 := by
  obtain ⟨w, h, -, h0, h1, h2, -⟩ := history_ok
  refine ⟨w, inv_run inv_empty _ h, h0, fun hr => ?_⟩
  rcases reach_owner hr with h | ⟨q, -, n, hn, hc⟩
  · cases h
  · have hmir := (C65_ownership _ _ h).2 q 0 _ ⟨n, hn, hc⟩ h0
    cases hmir

/-! The theorems for a history in which one joint remains with the client. -/

theorem client_ok : ∃ w : World ℚ, run empty [.make 2, .make 3] = .ok w ∧ w.client 1 ∧ w.node 0 = some ⟨none, [], 2⟩ := by
  refine ⟨_, rfl, ?_, ?_⟩ <;> simp [empty, make]

example : ∃ w : World ℚ, Consistent w ∧ Mirrors w ∧ Orphans w ∧ (∃ w', addRootJoint w 7 1 = .ok w') ∧ ∃ w', addSubJoint w 0 1 = .ok w' := by
  obtain ⟨w, h, h1, h0⟩ := client_ok
  have hn : ∀ op ∈ ([.make 2, .make 3] : List (Op ℚ)), op.NoRemove := by simp [Op.NoRemove]
  obtain ⟨ha, hb⟩ := C65_add_accepted _ hn w h 1 h1
  obtain ⟨u, hu, -⟩ := ha 7
  obtain ⟨v, -, hv, -⟩ := hb 0 _ h0
  exact ⟨w, (C65_ownership _ _ h).1, (C65_ownership _ _ h).2, C65_orphans _ hn w h, ⟨u, hu⟩, v, hv⟩

end Geom.SkeletonHeap.Props
