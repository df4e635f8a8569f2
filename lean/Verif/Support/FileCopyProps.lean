/-
C61: copying directories.
-/
import Verif.Support.FileCopySpec

namespace Verif.Support.FileCopy

/-! ### Paths -/

/-- The path of the names below `parent`. -/
def under (parent : Path) (ns : List Path) : Path :=
  if parent = [] then join ns else parent ++ '/' :: join ns

theorem join_cons {n : Path} {ns : List Path} (h : ns ≠ []) : join (n :: ns) = n ++ '/' :: join ns := by
  cases ns with
  | nil => exact absurd rfl h
  | cons m ms => rfl

theorem sub_ne {parent n : Path} (h : n ≠ []) : sub parent n ≠ [] := by
  unfold sub; split
  · exact h
  · simp

theorem under_single (parent n : Path) : under parent [n] = sub parent n := by
  unfold under sub; split <;> rfl

theorem under_cons {parent n : Path} {ns : List Path} (hn : n ≠ []) (h : ns ≠ []) :
    under (sub parent n) ns = under parent (n :: ns) := by
  unfold under
  rw [if_neg (sub_ne hn), join_cons h]
  unfold sub
  split
  · rfl
  · simp

theorem under_nil (ns : List Path) : under [] ns = join ns := by simp [under]

/-- Two names with `/` or nothing after them. -/
theorem name_split {n m r s : Path} (hn : '/' ∉ n) (hm : '/' ∉ m) (h : n ++ '/' :: r = m ++ '/' :: s) :
    n = m ∧ r = s := by
  induction n generalizing m with
  | nil =>
    cases m with
    | nil => simpa using h
    | cons c m => simp at h hm; exact absurd h.1 hm.1
  | cons c n ih =>
    cases m with
    | nil => simp at h hn; exact absurd h.1.symm hn.1
    | cons d m =>
      simp at h hn hm
      obtain ⟨a, b⟩ := ih hn.2 hm.2 h.2
      simp [h.1, a, b]

theorem join_inj {ns ms : List Path} (hn : ∀ n ∈ ns, n ≠ [] ∧ '/' ∉ n) (hm : ∀ n ∈ ms, n ≠ [] ∧ '/' ∉ n)
    (h : join ns = join ms) : ns = ms := by
  induction ns generalizing ms with
  | nil =>
    cases ms with
    | nil => rfl
    | cons m ms =>
      exfalso
      have := (hm m (by simp)).1
      cases ms with
      | nil => exact this h.symm
      | cons a b => simp [join] at h
  | cons n ns ih =>
    cases ms with
    | nil =>
      exfalso
      have := (hn n (by simp)).1
      cases ns with
      | nil => exact this h
      | cons a b => simp [join] at h
    | cons m ms =>
      have n1 := hn n (by simp)
      have m1 := hm m (by simp)
      cases ns with
      | nil =>
        cases ms with
        | nil => simp [join] at h; simp [h]
        | cons a b =>
          exfalso; apply n1.2
          rw [join_cons (n := m) (ns := a :: b) (by simp)] at h
          have h' : n = m ++ '/' :: join (a :: b) := h
          rw [h']; simp
      | cons a b =>
        cases ms with
        | nil =>
          exfalso; apply m1.2
          rw [join_cons (n := n) (ns := a :: b) (by simp)] at h
          have h' : n ++ '/' :: join (a :: b) = m := h
          rw [← h']; simp
        | cons c d =>
          rw [join_cons (n := n) (ns := a :: b) (by simp), join_cons (n := m) (ns := c :: d) (by simp)] at h
          obtain ⟨x, y⟩ := name_split n1.2 m1.2 h
          have := ih (fun z hz => hn z (List.mem_cons_of_mem _ hz)) (fun z hz => hm z (List.mem_cons_of_mem _ hz)) y
          rw [x, this]

/-! ### Entries -/

mutual
theorem isAt_head : (nd : Node) → ∀ ⦃ns k⦄, IsAt nd ns k → ∃ t, ns = nd.name :: t
  | .file n c, ns, k, h => by cases h; exact ⟨[], rfl⟩
  | .link n c, ns, k, h => by cases h; exact ⟨[], rfl⟩
  | .other n, ns, k, h => by cases h; exact ⟨[], rfl⟩
  | .dir n cs, ns, k, h => by
    cases h with
    | here => exact ⟨[], rfl⟩
    | inside h => exact ⟨_, rfl⟩
theorem has_head : (cs : Nodes) → ∀ ⦃ns k⦄, Has cs ns k → ∃ n t, ns = n :: t ∧ n ∈ cs.names
  | .nil, ns, k, h => by cases h
  | .cons nd rest, ns, k, h => by
    cases h with
    | head h =>
      obtain ⟨t, e⟩ := isAt_head nd h
      exact ⟨_, t, e, by simp [Nodes.names]⟩
    | tail h =>
      obtain ⟨n, t, e, m⟩ := has_head rest h
      exact ⟨n, t, e, by simp [Nodes.names, m]⟩
end

mutual
theorem isAt_ok : (nd : Node) → nd.Ok → ∀ ⦃ns k⦄, IsAt nd ns k → ∀ n ∈ ns, n ≠ [] ∧ '/' ∉ n
  | .file n c, ok, ns, k, h => by cases h; simpa [Node.Ok] using ok
  | .link n c, ok, ns, k, h => by cases h; simpa [Node.Ok] using ok
  | .other n, ok, ns, k, h => by cases h; simpa [Node.Ok] using ok
  | .dir n cs, ok, ns, k, h => by
    simp only [Node.Ok] at ok
    cases h with
    | here => simpa using ok.1
    | inside h =>
      intro m hm
      simp at hm
      cases hm with
      | inl e => rw [e]; exact ok.1
      | inr hm => exact has_ok cs ok.2 h m hm
theorem has_ok : (cs : Nodes) → cs.Ok → ∀ ⦃ns k⦄, Has cs ns k → ∀ n ∈ ns, n ≠ [] ∧ '/' ∉ n
  | .nil, ok, ns, k, h => by cases h
  | .cons nd rest, ok, ns, k, h => by
    simp only [Nodes.Ok] at ok
    cases h with
    | head h => exact isAt_ok nd ok.1 h
    | tail h => exact has_ok rest ok.2.1 h
end

mutual
theorem isAt_det : (nd : Node) → nd.Ok → ∀ ⦃ns k k'⦄, IsAt nd ns k → IsAt nd ns k' → k = k'
  | .file n c, ok, ns, k, k', h, h' => by cases h; cases h'; rfl
  | .link n c, ok, ns, k, k', h, h' => by cases h; cases h'; rfl
  | .other n, ok, ns, k, k', h, h' => by cases h; cases h'; rfl
  | .dir n cs, ok, ns, k, k', h, h' => by
    simp only [Node.Ok] at ok
    cases h with
    | here =>
      cases h' with
      | here => rfl
      | inside h' => obtain ⟨_, _, e, _⟩ := has_head cs h'; cases e
    | inside h =>
      cases h' with
      | here => obtain ⟨_, _, e, _⟩ := has_head cs h; cases e
      | inside h' => exact has_det cs ok.2 h h'
theorem has_det : (cs : Nodes) → cs.Ok → ∀ ⦃ns k k'⦄, Has cs ns k → Has cs ns k' → k = k'
  | .nil, ok, ns, k, k', h, h' => by cases h
  | .cons nd rest, ok, ns, k, k', h, h' => by
    simp only [Nodes.Ok] at ok
    cases h with
    | head h =>
      cases h' with
      | head h' => exact isAt_det nd ok.1 h h'
      | tail h' =>
        obtain ⟨t, e⟩ := isAt_head nd h
        obtain ⟨n, t', e', m⟩ := has_head rest h'
        rw [e] at e'; injection e' with e1 _
        rw [← e1] at m; exact absurd m ok.2.2
    | tail h =>
      cases h' with
      | tail h' => exact has_det rest ok.2.1 h h'
      | head h' =>
        obtain ⟨t, e⟩ := isAt_head nd h'
        obtain ⟨n, t', e', m⟩ := has_head rest h
        rw [e] at e'; injection e' with e1 _
        rw [← e1] at m; exact absurd m ok.2.2
end

/-! ### Which entries are chosen -/

def Action.path : Action → Path
  | .mkdir p => p
  | .symlink p _ => p
  | .copy p _ => p

def Action.entry : Action → Entry
  | .mkdir _ => .dir
  | .symlink _ t => .link t
  | .copy _ c => .file c

/-- The action for an entry of kind `k` at `p`. -/
def Kind.action (p : Path) : Kind → Option Action
  | .dir => some (.mkdir p)
  | .file c => some (.copy p c)
  | .link t => some (.symlink p t)
  | .other => none

theorem any_suffix (ss : List Path) (p : Path) :
    (ss.any fun s => s ≠ [] && s.isSuffixOf p) = true ↔ EndsIn ss p := by
  simp [EndsIn, List.isSuffixOf_iff_suffix]

theorem filter_iff (o : Options) (p : Path) (isDir : Bool) :
    o.filter p isDir = true ↔
      (p ≠ [] → p ∉ o.ignoreSubPaths) ∧
      (isDir = false → (o.includeSuffix = [] ∨ EndsIn o.includeSuffix p) ∧ ¬ EndsIn o.ignoreSuffix p) := by
  unfold Options.filter
  have h1 : (o.ignoreSubPaths.any fun q => q ≠ [] && q = p) = true ↔ ¬ (p ≠ [] → p ∉ o.ignoreSubPaths) := by
    rw [List.any_eq_true]; constructor
    · rintro ⟨x, m, h⟩ c
      simp only [Bool.and_eq_true, decide_eq_true_eq] at h
      obtain ⟨ne, rfl⟩ := h
      exact c ne m
    · intro h
      rcases Classical.em (p ≠ [] ∧ p ∈ o.ignoreSubPaths) with ⟨ne, m⟩ | c
      · exact ⟨p, m, by simp [ne]⟩
      · exact absurd (fun ne m => c ⟨ne, m⟩) h
  have h2 := any_suffix o.includeSuffix p
  have h3 := any_suffix o.ignoreSuffix p
  split
  · rename_i h
    have := h1.mp h
    simp only [Bool.false_eq_true, false_iff, not_and]
    intro x; exact absurd x this
  · rename_i h
    have hi : (p ≠ [] → p ∉ o.ignoreSubPaths) := by
      rcases Classical.em (p ≠ [] → p ∉ o.ignoreSubPaths) with x | x
      · exact x
      · exact absurd (h1.mpr x) h
    cases isDir with
    | true => simp; simpa using hi
    | false =>
      simp only [Bool.false_eq_true, if_false]
      split
      · rename_i hh
        simp only [Bool.and_eq_true, Bool.not_eq_true', decide_eq_true_eq, ne_eq] at hh
        have : ¬ EndsIn o.includeSuffix p := by
          intro x; rw [← h2] at x; rw [x] at hh; exact absurd hh.2 (by simp)
        constructor
        · intro x; exact absurd x (by simp)
        rintro ⟨_, x⟩
        exfalso
        rcases (x trivial).1 with x | x
        · exact hh.1 x
        · exact this x
      · rename_i hh
        have hinc : o.includeSuffix = [] ∨ EndsIn o.includeSuffix p := by
          rcases Classical.em (o.includeSuffix = []) with x | x
          · exact .inl x
          · right; rw [← h2]
            simp only [Bool.and_eq_true, Bool.not_eq_true', decide_eq_true_eq, ne_eq, not_and,
              Bool.not_eq_false] at hh
            exact hh x
        split
        · rename_i h4
          have := h3.mp h4
          simp [this]
        · rename_i h4
          have : ¬ EndsIn o.ignoreSuffix p := fun x => h4 (h3.mpr x)
          simp [this, hinc]; simpa using hi

/-- `Wanted`, below a directory. -/
def WantedU (o : Options) (parent : Path) (ns : List Path) (k : Kind) : Prop :=
  (∀ pre, pre <+: ns → pre ≠ [] → under parent pre ≠ [] → under parent pre ∉ o.ignoreSubPaths) ∧
  (k ≠ .dir → (o.includeSuffix = [] ∨ EndsIn o.includeSuffix (under parent ns)) ∧
    ¬ EndsIn o.ignoreSuffix (under parent ns))

theorem wantedU_single {o : Options} {parent n : Path} {k : Kind} :
    WantedU o parent [n] k ↔ o.filter (sub parent n) (decide (k = .dir)) = true := by
  rw [filter_iff]
  unfold WantedU
  rw [under_single]
  constructor
  · rintro ⟨a, b⟩
    refine ⟨?_, fun h => b (by simpa using h)⟩
    have := a [n] (List.prefix_refl _) (by simp)
    rwa [under_single] at this
  · rintro ⟨a, b⟩
    refine ⟨?_, fun h => b (by simpa using h)⟩
    intro pre hp hne
    have : pre = [n] := by
      cases pre with
      | nil => exact absurd rfl hne
      | cons x xs =>
        obtain ⟨t, ht⟩ := hp
        simp at ht; simp [ht]
    rw [this, under_single]; exact a

theorem wantedU_cons {o : Options} {parent n : Path} {ns : List Path} {k : Kind} (hn : n ≠ []) (h : ns ≠ []) :
    WantedU o parent (n :: ns) k ↔ o.filter (sub parent n) true = true ∧ WantedU o (sub parent n) ns k := by
  rw [filter_iff]
  unfold WantedU
  rw [under_cons hn h]
  constructor
  · rintro ⟨a, b⟩
    refine ⟨⟨?_, by simp⟩, ?_, b⟩
    · have := a [n] (by simp) (by simp)
      rwa [under_single] at this
    · intro pre hp hne
      rw [under_cons hn hne]
      exact a (n :: pre) (by simpa using hp) (by simp)
  · rintro ⟨⟨a, -⟩, b, c⟩
    refine ⟨?_, c⟩
    intro pre hp hne
    cases pre with
    | nil => exact absurd rfl hne
    | cons x xs =>
      obtain ⟨t, ht⟩ := hp
      simp at ht
      obtain ⟨rfl, ht⟩ := ht
      cases xs with
      | nil => rw [under_single]; exact a
      | cons y ys =>
        rw [← under_cons hn (by simp)]
        exact b (y :: ys) ⟨t, ht⟩ (by simp)

mutual
theorem mem_walkNode (o : Options) : (nd : Node) → nd.Ok → ∀ (parent : Path) (a : Action),
    a ∈ walkNode o parent nd ↔
      ∃ ns k, IsAt nd ns k ∧ WantedU o parent ns k ∧ k.action (under parent ns) = some a
  | .file n c, ok, parent, a => by
    unfold walkNode
    constructor
    · intro h
      split at h
      · rename_i hf
        refine ⟨[n], .file c, .file, wantedU_single.mpr (by simpa using hf), ?_⟩
        rw [under_single]; simp at h; simp [Kind.action, h]
      · simp at h
    · rintro ⟨ns, k, h, w, e⟩
      cases h
      have := wantedU_single.mp w
      rw [if_pos (by simpa using this)]
      rw [under_single] at e; simp [Kind.action] at e; simp [e]
  | .link n c, ok, parent, a => by
    unfold walkNode
    constructor
    · intro h
      split at h
      · rename_i hf
        refine ⟨[n], .link c, .link, wantedU_single.mpr (by simpa using hf), ?_⟩
        rw [under_single]; simp at h; simp [Kind.action, h]
      · simp at h
    · rintro ⟨ns, k, h, w, e⟩
      cases h
      have := wantedU_single.mp w
      rw [if_pos (by simpa using this)]
      rw [under_single] at e; simp [Kind.action] at e; simp [e]
  | .other n, ok, parent, a => by
    unfold walkNode
    constructor
    · intro h; simp at h
    · rintro ⟨ns, k, h, w, e⟩
      cases h; simp [Kind.action] at e
  | .dir n cs, ok, parent, a => by
    simp only [Node.Ok] at ok
    unfold walkNode
    constructor
    · intro h
      split at h
      · rename_i hf
        simp only [List.mem_cons] at h
        cases h with
        | inl e =>
          refine ⟨[n], .dir, .here, wantedU_single.mpr (by simpa using hf), ?_⟩
          rw [under_single]; simp [Kind.action, e]
        | inr h =>
          obtain ⟨ns, k, hh, w, e⟩ := (mem_walk o cs ok.2 (sub parent n) a).mp h
          have hne : ns ≠ [] := by obtain ⟨_, _, e, _⟩ := has_head cs hh; simp [e]
          refine ⟨n :: ns, k, .inside hh, (wantedU_cons ok.1.1 hne).mpr ⟨hf, w⟩, ?_⟩
          rw [← under_cons ok.1.1 hne]; exact e
      · simp at h
    · rintro ⟨ns, k, h, w, e⟩
      cases h with
      | here =>
        have := wantedU_single.mp w
        rw [if_pos (by simpa using this)]
        rw [under_single] at e; simp [Kind.action] at e; simp [e]
      | @inside _ _ ns _ hh =>
        have hne : ns ≠ [] := by obtain ⟨_, _, e, _⟩ := has_head cs hh; simp [e]
        obtain ⟨hf, w⟩ := (wantedU_cons ok.1.1 hne).mp w
        rw [if_pos hf]
        rw [← under_cons ok.1.1 hne] at e
        exact List.mem_cons_of_mem _ ((mem_walk o cs ok.2 (sub parent n) a).mpr ⟨ns, k, hh, w, e⟩)
theorem mem_walk (o : Options) : (cs : Nodes) → cs.Ok → ∀ (parent : Path) (a : Action),
    a ∈ walk o parent cs ↔
      ∃ ns k, Has cs ns k ∧ WantedU o parent ns k ∧ k.action (under parent ns) = some a
  | .nil, ok, parent, a => by
    unfold walk
    constructor
    · intro h; simp at h
    · rintro ⟨ns, k, h, _⟩; cases h
  | .cons nd rest, ok, parent, a => by
    simp only [Nodes.Ok] at ok
    unfold walk
    rw [List.mem_append, mem_walkNode o nd ok.1, mem_walk o rest ok.2.1]
    constructor
    · rintro (⟨ns, k, h, w⟩ | ⟨ns, k, h, w⟩)
      · exact ⟨ns, k, .head h, w⟩
      · exact ⟨ns, k, .tail h, w⟩
    · rintro ⟨ns, k, h, w⟩
      cases h with
      | head h => exact .inl ⟨ns, k, h, w⟩
      | tail h => exact .inr ⟨ns, k, h, w⟩
end

/-! ### No path twice -/

theorem under_inj {parent : Path} {ns ms : List Path} (hn : ∀ n ∈ ns, n ≠ [] ∧ '/' ∉ n)
    (hm : ∀ n ∈ ms, n ≠ [] ∧ '/' ∉ n) (h : under parent ns = under parent ms) : ns = ms := by
  unfold under at h
  split at h
  · exact join_inj hn hm h
  · simp at h; exact join_inj hn hm h

theorem action_path {k : Kind} {p : Path} {a : Action} (h : k.action p = some a) : a.path = p := by
  cases k <;> simp [Kind.action] at h <;> subst h <;> rfl

theorem action_entry {k : Kind} {p : Path} {a : Action} (h : k.action p = some a) : k.entry = some a.entry := by
  cases k <;> simp [Kind.action] at h <;> subst h <;> rfl

def Apart (as : List Action) : Prop := as.Pairwise fun a b => a.path ≠ b.path

mutual
theorem walkNode_apart (o : Options) : (nd : Node) → nd.Ok → ∀ (parent : Path), Apart (walkNode o parent nd)
  | .file n c, ok, parent => by unfold walkNode Apart; split <;> simp
  | .link n c, ok, parent => by unfold walkNode Apart; split <;> simp
  | .other n, ok, parent => by unfold walkNode Apart; simp
  | .dir n cs, ok, parent => by
    simp only [Node.Ok] at ok
    unfold walkNode
    split
    · refine List.pairwise_cons.mpr ⟨?_, walk_apart o cs ok.2 _⟩
      intro a ha
      obtain ⟨ns, k, hh, w, e⟩ := (mem_walk o cs ok.2 _ _).mp ha
      rw [action_path e]
      have hne : ns ≠ [] := by obtain ⟨_, _, e, _⟩ := has_head cs hh; simp [e]
      show sub parent n ≠ _
      rw [under_cons ok.1.1 hne, ← under_single]
      intro h
      have := under_inj (by simpa using ok.1) (isAt_ok (.dir n cs) (by simp only [Node.Ok]; exact ok) (.inside hh)) h
      simp at this; exact hne this
    · exact .nil
theorem walk_apart (o : Options) : (cs : Nodes) → cs.Ok → ∀ (parent : Path), Apart (walk o parent cs)
  | .nil, ok, parent => by unfold walk; exact .nil
  | .cons nd rest, ok, parent => by
    simp only [Nodes.Ok] at ok
    unfold walk
    refine List.pairwise_append.mpr ⟨walkNode_apart o nd ok.1 parent, walk_apart o rest ok.2.1 parent, ?_⟩
    intro a ha b hb
    obtain ⟨ns, k, h, w, e⟩ := (mem_walkNode o nd ok.1 _ _).mp ha
    obtain ⟨ns', k', h', w', e'⟩ := (mem_walk o rest ok.2.1 _ _).mp hb
    rw [action_path e, action_path e']
    intro hh
    have := under_inj (isAt_ok nd ok.1 h) (has_ok rest ok.2.1 h') hh
    obtain ⟨t, e1⟩ := isAt_head nd h
    obtain ⟨n, t', e2, m⟩ := has_head rest h'
    rw [this, e2] at e1
    injection e1 with e1 _
    rw [e1] at m; exact ok.2.2 m
end

/-! ### The sequential copy -/

/-- The target allows this action. -/
def Fits (t : Target) (a : Action) : Prop := (act t a).isSome = true

theorem act_eq {t : Target} {a : Action} {t' : Target} (h : act t a = some t') :
    ∀ q, t' q = if q = a.path then some a.entry else t q := by
  intro q
  cases a with
  | mkdir p =>
    simp only [act] at h
    split at h
    · simp at h; subst h; rfl
    · rename_i e
      simp at h; subst h
      show _ = if q = p then _ else _
      split
      · rename_i e'; rw [e', e]; rfl
      · rfl
    · simp at h
  | symlink p l =>
    simp only [act] at h
    split at h
    · simp at h; subst h; rfl
    · simp at h
  | copy p c =>
    simp only [act] at h
    split at h
    · simp at h; subst h; rfl
    · simp at h; subst h; rfl
    · simp at h

theorem fits_congr {t t' : Target} {a : Action} (h : t a.path = t' a.path) : Fits t a ↔ Fits t' a := by
  unfold Fits
  cases a with
  | mkdir p => simp only [act, Action.path] at *; rw [h]; split <;> simp
  | symlink p l => simp only [act, Action.path] at *; rw [h]; split <;> simp
  | copy p c => simp only [act, Action.path] at *; rw [h]; split <;> simp

theorem run_spec (as : List Action) (ap : Apart as) (t : Target) :
    ((run t as).2 = true ↔ ∀ a ∈ as, Fits t a) ∧
    ((run t as).2 = true →
      (∀ a ∈ as, (run t as).1 a.path = some a.entry) ∧ ∀ q, (∀ a ∈ as, a.path ≠ q) → (run t as).1 q = t q) := by
  induction as generalizing t with
  | nil => simp [run]
  | cons a as ih =>
    obtain ⟨hd, tl⟩ := List.pairwise_cons.mp ap
    unfold run
    split
    · rename_i t' h
      have eq := act_eq h
      have fitsA : Fits t a := by simp [Fits, h]
      have congr : ∀ b ∈ as, (Fits t' b ↔ Fits t b) := by
        intro b hb
        apply fits_congr
        rw [eq, if_neg (fun e => hd b hb e.symm)]
      obtain ⟨i1, i2⟩ := ih tl t'
      refine ⟨?_, ?_⟩
      · rw [i1]
        constructor
        · intro x b hb
          cases List.mem_cons.mp hb with
          | inl e => rw [e]; exact fitsA
          | inr m => exact (congr b m).mp (x b m)
        · intro x b hb
          exact (congr b hb).mpr (x b (List.mem_cons_of_mem _ hb))
      · intro x
        obtain ⟨j1, j2⟩ := i2 x
        refine ⟨?_, ?_⟩
        · intro b hb
          cases List.mem_cons.mp hb with
          | inl e =>
            rw [e, j2 _ (fun c hc e' => hd c hc e'.symm), eq, if_pos rfl]
          | inr m => exact j1 b m
        · intro q hq
          rw [j2 q (fun c hc => hq c (List.mem_cons_of_mem _ hc)), eq,
            if_neg (fun e => hq a (by simp) e.symm)]
    · rename_i h
      refine ⟨?_, by simp⟩
      constructor
      · intro x; simp at x
      · intro x
        have := x a (by simp)
        simp [Fits, h] at this

/-- **C61.** The sequential copy of a directory: afterwards every wanted entry is in the target as in the source, and
    everything else there is as before (or gone, if the target is replaced); it fails exactly if the target has something
    in the way: a non-directory where a directory comes, a non-file where a file comes, anything where a link comes. -/
theorem C61_copy (o : Options) (rm : Bool) (src : Nodes) (ok : src.Ok) (t : Target) :
    let before : Target := if rm then fun _ => none else t
    ((copyDir o rm src t).2 = true ↔
      ∀ ns k, Has src ns k → Wanted o ns k →
        (k = .dir → before (join ns) = none ∨ before (join ns) = some .dir) ∧
        (∀ c, k = .file c → before (join ns) = none ∨ ∃ c', before (join ns) = some (.file c')) ∧
        (∀ l, k = .link l → before (join ns) = none)) ∧
    ((copyDir o rm src t).2 = true →
      (∀ ns k, Has src ns k → Wanted o ns k → k ≠ .other → (copyDir o rm src t).1 (join ns) = k.entry) ∧
      ∀ p, (∀ ns k, Has src ns k → Wanted o ns k → k ≠ .other → join ns ≠ p) →
        (copyDir o rm src t).1 p = before p) := by
  intro before
  have wu : ∀ ns k, WantedU o [] ns k ↔ Wanted o ns k := by
    intro ns k; simp only [WantedU, Wanted, under_nil]
  have mem : ∀ a, a ∈ walk o [] src ↔ ∃ ns k, Has src ns k ∧ Wanted o ns k ∧ k.action (join ns) = some a := by
    intro a
    rw [mem_walk o src ok]
    constructor
    · rintro ⟨ns, k, h, w, e⟩; exact ⟨ns, k, h, (wu ns k).mp w, by rwa [under_nil] at e⟩
    · rintro ⟨ns, k, h, w, e⟩; exact ⟨ns, k, h, (wu ns k).mpr w, by rwa [under_nil]⟩
  obtain ⟨r1, r2⟩ := run_spec (walk o [] src) (walk_apart o src ok []) before
  have act : ∀ (k : Kind) p, k ≠ .other → ∃ a, k.action p = some a := by
    intro k p h; cases k <;> simp [Kind.action] at *
  refine ⟨?_, ?_⟩
  · show (run before _).2 = true ↔ _
    rw [r1]
    constructor
    · intro x ns k h w
      refine ⟨?_, ?_, ?_⟩
      · rintro rfl
        have := x (.mkdir (join ns)) ((mem _).mpr ⟨ns, _, h, w, rfl⟩)
        simp only [Fits, FileCopy.act] at this
        split at this
        · left; assumption
        · right; assumption
        · simp at this
      · rintro c rfl
        have := x (.copy (join ns) c) ((mem _).mpr ⟨ns, _, h, w, rfl⟩)
        simp only [Fits, FileCopy.act] at this
        split at this
        · left; assumption
        · right; exact ⟨_, by assumption⟩
        · simp at this
      · rintro l rfl
        have := x (.symlink (join ns) l) ((mem _).mpr ⟨ns, _, h, w, rfl⟩)
        simp only [Fits, FileCopy.act] at this
        split at this
        · assumption
        · simp at this
    · intro x a ha
      obtain ⟨ns, k, h, w, e⟩ := (mem a).mp ha
      obtain ⟨x1, x2, x3⟩ := x ns k h w
      cases k with
      | dir =>
        simp [Kind.action] at e; subst e
        rcases x1 rfl with y | y <;> simp [Fits, FileCopy.act, y]
      | file c =>
        simp [Kind.action] at e; subst e
        rcases x2 c rfl with y | ⟨c', y⟩ <;> simp [Fits, FileCopy.act, y]
      | link l =>
        simp [Kind.action] at e; subst e
        simp [Fits, FileCopy.act, x3 l rfl]
      | other => simp [Kind.action] at e
  · intro x
    obtain ⟨y, z⟩ := r2 x
    refine ⟨?_, ?_⟩
    · intro ns k h w hk
      obtain ⟨a, e⟩ := act k (join ns) hk
      have := y a ((mem a).mpr ⟨ns, k, h, w, e⟩)
      rw [action_path e] at this
      rw [action_entry e]; exact this
    · intro p hp
      apply z
      intro a ha
      obtain ⟨ns, k, h, w, e⟩ := (mem a).mp ha
      rw [action_path e]
      exact hp ns k h w (by rintro rfl; simp [Kind.action] at e)

/-- Replacing a directory always succeeds (as far as the model goes: reading and writing do not fail). -/
theorem C61_replace (o : Options) (src : Nodes) (ok : src.Ok) (t : Target) : (copyDir o true src t).2 = true := by
  rw [(C61_copy o true src ok t).1]
  simp

/-- Without symbolic links among the wanted entries, copying again succeeds and changes nothing. -/
theorem C61_again_partial (o : Options) (rm : Bool) (src : Nodes) (ok : src.Ok) (t : Target)
    (h1 : (copyDir o rm src t).2 = true) (nolink : ∀ ns l, Has src ns (.link l) → ¬ Wanted o ns (.link l)) :
    (copyDir o false src (copyDir o rm src t).1).2 = true ∧
    (copyDir o false src (copyDir o rm src t).1).1 = (copyDir o rm src t).1 := by
  obtain ⟨y, z⟩ := (C61_copy o rm src ok t).2 h1
  generalize hu : (copyDir o rm src t).1 = u at *
  have s2 : (copyDir o false src u).2 = true := by
    rw [(C61_copy o false src ok u).1]
    intro ns k h w
    refine ⟨?_, ?_, ?_⟩
    · rintro rfl; right; exact y ns _ h w (by simp)
    · rintro c rfl; right; exact ⟨c, y ns _ h w (by simp)⟩
    · rintro l rfl; exact absurd w (nolink ns l h)
  refine ⟨s2, ?_⟩
  obtain ⟨y', z'⟩ := (C61_copy o false src ok u).2 s2
  funext p
  rcases Classical.em (∃ ns k, Has src ns k ∧ Wanted o ns k ∧ k ≠ .other ∧ join ns = p) with ⟨ns, k, h, w, hk, rfl⟩ | hn
  · rw [y' ns k h w hk, y ns k h w hk]
  · exact z' p (fun ns k h w hk e => hn ⟨ns, k, h, w, hk, e⟩)

/-! An example: `cmd/` with `a.go`, `a_test.go`; `.git/` with a file; a link. -/

def exTree : Nodes :=
  .cons (.dir ".git".toList (.cons (.file "HEAD".toList "x".toList) .nil))
    (.cons (.dir "cmd".toList (.cons (.file "a.go".toList "A".toList) (.cons (.file "a_test.go".toList "T".toList) .nil)))
      (.cons (.link "l".toList "cmd".toList) .nil))

def exOpts : Options := { ignoreSubPaths := [".git".toList], ignoreSuffix := ["_test.go".toList] }

theorem exTree_ok : exTree.Ok := by
  simp only [exTree, Nodes.Ok, Node.Ok, Nodes.names, Node.name]; decide

example : (copyDir exOpts true exTree fun _ => none).2 = true ∧
    (copyDir exOpts true exTree fun _ => none).1 "cmd/a.go".toList = some (.file "A".toList) ∧
    (copyDir exOpts true exTree fun _ => none).1 "cmd/a_test.go".toList = none ∧
    (copyDir exOpts true exTree fun _ => none).1 ".git/HEAD".toList = none ∧
    (copyDir exOpts true exTree fun _ => none).1 "l".toList = some (.link "cmd".toList) := by
  decide

example : Has exTree ["cmd".toList, "a.go".toList] (.file "A".toList) ∧
    Wanted { ignoreSuffix := ["_test.go".toList] } ["cmd".toList, "a.go".toList] (.file "A".toList) := by
  refine ⟨.tail (.head (.inside (.head .file))), by simp, fun _ => ⟨.inl rfl, ?_⟩⟩
  rintro ⟨s, hs, -, h⟩
  simp only [List.mem_cons, List.not_mem_nil, or_false] at hs
  subst hs
  rw [← List.isSuffixOf_iff_suffix] at h
  revert h; decide

/-- Copying twice is not copying once: the second copy of a directory with a symbolic link fails. -/
theorem C61_counterexample_link :
    (copyDir {} false exTree fun _ => none).2 = true ∧
    (copyDir {} false exTree (copyDir {} false exTree fun _ => none).1).2 = false := by
  decide

end Verif.Support.FileCopy
