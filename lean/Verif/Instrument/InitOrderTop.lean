/-
**C91**: what is said of the order of initialisation, of `init` functions and of the links.
-/
import Verif.Instrument.InitOrderMain

namespace Verif.Instrument.InitOrder

/-- There is at most one order of initialisation. -/
theorem Inits.unique {α} {dep : α → α → Prop} {R D l l' : List α} (h : Inits dep R D l) (h' : Inits dep R D l') : l = l' := by
  induction h generalizing l' with
  | nil =>
    generalize hR : ([] : List α) = R at h'
    cases h' with
    | nil => rfl
    | next => exact absurd hR (by simp)
  | @next a v b D l ha hv _ ih =>
    generalize hR : a ++ v :: b = R at h'
    cases h' with
    | nil => exact absurd hR (by simp)
    | @next a' v' b' _ l' ha' hv' h' =>
      have : a = a' ∧ v = v' ∧ b = b' := by
        rcases List.append_eq_append_iff.1 hR with ⟨c, h1, h2⟩ | ⟨c, h1, h2⟩
        · cases c with
          | nil =>
            obtain ⟨h3, h4⟩ := List.cons.inj h2
            exact ⟨by simp [h1], h3, h4⟩
          | cons x c =>
            obtain ⟨h3, h4⟩ := List.cons.inj h2
            exact absurd hv (ha' v (by rw [h1, h3]; simp))
        · cases c with
          | nil =>
            obtain ⟨h3, h4⟩ := List.cons.inj h2
            exact ⟨by simp [h1], h3.symm, h4.symm⟩
          | cons x c =>
            obtain ⟨h3, h4⟩ := List.cons.inj h2
            exact absurd hv' (ha v' (by rw [h1, h3]; simp))
      obtain ⟨rfl, rfl, rfl⟩ := this
      rw [ih h']

/-- **C91** (order): if no variable is declared between one that uses something intercepted in a file and the code added to that file, the
    package still has an order of initialisation, and it initialises the user's variables in the order of the source.
    Without the condition the order can change (`C91_order_counterexample`). -/
theorem C91_order_partial (p : Pkg) (hd : p.Declared) (ht : p.Tidy) (l : List Name) (h : p.Source l) :
    (∃ l', p.Compiled l') ∧ ∀ l', p.Compiled l' → l'.filter Name.user = l := by
  obtain ⟨l', h1, h2⟩ := simulate (R' := p.order') (D' := []) hd ht rfl h
    ⟨order_user p, List.Sublist.refl _, fun x hx => .inl hx, (by intro a ha; cases ha), (by intro v; exact Iff.rfl)⟩
  refine ⟨⟨l', h1⟩, ?_⟩
  intro l'' h3
  rw [Inits.unique h3 h1, h2]

/-- **C91** (no loop): instrumentation makes no variable depend on itself. -/
theorem C91_no_loop (p : Pkg) (h : ∀ v, ¬ Depends p.refs (.var v) (.var v)) (x : Name) (hx : x ∈ p.order') : ¬ Depends p.refs' x x := by
  intro hd
  cases hu : x.user with
  | true =>
    obtain ⟨v, rfl⟩ : ∃ v, x = .var v := by cases x <;> first | exact ⟨_, rfl⟩ | cases hu
    exact h v (depends_iff.1 hd)
  | false =>
    rcases added_waits hu (order_isVar hx) hd with ⟨i, k, rfl, hm⟩ | ⟨v, rfl, hw⟩
    · cases hm
    · rcases hw with hw | hw
      · cases hw
      · have h2 : Depends p.refs' (.var v) (.var v) := ⟨.more hw.1 (by simp [Pkg.refs']), rfl⟩
        exact h v (depends_iff.1 h2)

/-! ### The order can change -/

/-- ```go
    var x = f()
    var y = 1
    func f() int { … }
    ```
    in the first file, `f` in the second, and trapped. -/
def swapped : Pkg where
  files := [[.vars [0], .vars [1]], [.func 0]]
  varRefs := fun v => if v = 0 then [.func 0] else []
  funcRefs := fun _ => []
  trapped := fun f => f == 0
  intercepted := fun _ => false
  homeFunc := fun _ => 1
  homeVar := fun _ => 0
  homeIntf := fun _ => 0

theorem swapped_declared : swapped.Declared := by
  refine ⟨?_, ?_, ?_, ?_⟩
  · intro f hf
    have : f = 0 := by simpa [swapped] using hf
    subst this
    exact ⟨[.func 0], rfl, by simp⟩
  · intro v hv; cases hv
  · decide
  · intro i ds t h1 h2
    rcases i with _ | _ | i
    · cases h1; simp at h2
    · cases h1; simp at h2
    · cases h1

theorem ready_none {dep : α → α → Prop} {D : List α} {v : α} (h : ∀ w, ¬ dep v w) : Ready dep D v := fun w hw => absurd hw (h w)

theorem leaf {refs : Name → List Name} {a : Name} (h : refs a = []) (w : Name) : ¬ Depends refs a w := by
  rintro ⟨hr, _⟩
  obtain ⟨x, hx, _⟩ := hr.first
  rw [h] at hx; cases hx

theorem swapped_source : swapped.Source [.var 0, .var 1] := by
  refine .next (a := []) (b := [Name.var 1]) (by intro u hu; cases hu) ?_ (.next (a := []) (b := ([] : List Name)) (by intro u hu; cases hu) ?_ .nil)
  · refine ready_none ?_
    rintro w ⟨hr, hw⟩
    obtain ⟨x, hx, hxw⟩ := hr.first
    have : x = .func 0 := by simpa [Pkg.refs, swapped, Ref.plain] using hx
    subst this
    rcases hxw with rfl | h
    · cases hw
    · obtain ⟨y, hy, _⟩ := h.first; cases hy
  · exact ready_none (leaf rfl)

theorem swapped_waits {D : List Name} (h : Name.infoFunc 0 ∉ D) : ∀ u ∈ [Name.var 0], ¬ Ready (Depends swapped.refs') D u := by
  intro u hu hr
  have := List.mem_singleton.1 hu
  subst this
  refine h (hr _ ⟨.more (.one (b := .func 0) ?_) ?_, rfl⟩)
  · simp [Pkg.refs', swapped, Pkg.use]
  · simp [Pkg.refs', swapped]

theorem swapped_compiled : swapped.Compiled
    [.var 1, .stub 1 .register, .stub 1 .trap, .stub 1 .trapVar, .stub 1 .trapVarPtr, .stub 1 .pkg, .stub 1 .file, .stub 1 .fileForVar,
     .infoFunc 0, .var 0] := by
  refine .next (a := [Name.var 0]) (swapped_waits (by simp)) (ready_none (leaf rfl)) ?_
  iterate 7 refine .next (a := [Name.var 0]) (swapped_waits (by simp)) (stub_ready _ _ _ _) ?_
  refine .next (a := [Name.var 0]) (b := ([] : List Name)) (swapped_waits (by simp)) ?_
    (.next (a := []) (b := ([] : List Name)) (by intro u hu; cases hu) ?_ .nil)
  · intro w hw
    rcases added_waits rfl rfl hw with ⟨i, k, rfl, hm⟩ | ⟨v, h, _⟩
    · simp [Pkg.refs', swapped] at hm
      rcases hm with ⟨rfl, rfl⟩ | ⟨rfl, rfl⟩ <;> simp
    · cases h
  · rintro w ⟨hr, hw⟩
    obtain ⟨x, hx, hxw⟩ := hr.first
    have : x = .func 0 := by simpa [Pkg.refs', swapped, Pkg.use] using hx
    subst this
    rcases hxw with rfl | hr
    · cases hw
    obtain ⟨x, hx, hxw⟩ := hr.first
    have : x = .stub 1 .trap ∨ x = .infoFunc 0 := by simpa [Pkg.refs', swapped, Pkg.use] using hx
    rcases this with rfl | rfl
    · rcases hxw with rfl | hr
      · simp
      · obtain ⟨x, hx, hxw⟩ := hr.first; cases hx
    · rcases hxw with rfl | hr
      · simp
      · rcases added_waits (p := swapped) rfl rfl ⟨hr, hw⟩ with ⟨i, k, rfl, hm⟩ | ⟨v, h, _⟩
        · simp [Pkg.refs', swapped] at hm
          rcases hm with ⟨rfl, rfl⟩ | ⟨rfl, rfl⟩ <;> simp
        · cases h

/-- **C91** (order, counterexample): `x = f()` declared before `y`, with `f` trapped in a later file: in the source `x` is initialised
    first, when instrumented `y` is. -/
theorem C91_order_counterexample : swapped.Declared ∧ swapped.Source [.var 0, .var 1] ∧
    ∀ l', swapped.Compiled l' → l'.filter Name.user = [.var 1, .var 0] := by
  refine ⟨swapped_declared, swapped_source, ?_⟩
  intro l' h
  rw [Inits.unique h swapped_compiled]
  rfl

/-- The same with `f` declared in front of the variables, in the same file: the condition of `C91_order_partial` is met. -/
def kept : Pkg where
  files := [[.func 0, .vars [0], .vars [1]]]
  varRefs := fun v => if v = 0 then [.func 0] else []
  funcRefs := fun _ => [.var 1 (some false)]
  trapped := fun f => f == 0
  intercepted := fun v => v == 1
  homeFunc := fun _ => 0
  homeVar := fun _ => 0
  homeIntf := fun _ => 0

theorem kept_declared : kept.Declared := by
  refine ⟨?_, ?_, ?_, ?_⟩
  · intro f hf
    have : f = 0 := by simpa [kept] using hf
    subst this
    exact ⟨_, rfl, by simp⟩
  · intro v hv
    have : v = 1 := by simpa [kept] using hv
    subst this
    exact ⟨_, rfl, by simp [names, Decl.names]⟩
  · decide
  · intro i ds t h1 h2
    rcases i with _ | i
    · cases h1; simp at h2
    · cases h1

theorem kept_tidy : kept.Tidy := by
  intro v u i _ _ hm
  unfold Pkg.before at hm
  rcases i with _ | i
  · exact absurd hm (by simp [kept, names, Decl.names])
  · -- what is used lives in the first file
    rename_i hu
    rcases hu with ⟨f, _, _, h⟩ | ⟨w, a, _, h⟩ <;> cases h

theorem kept_source : kept.Source [.var 1, .var 0] := by
  refine .next (a := [Name.var 0]) (b := ([] : List Name)) ?_ (ready_none (leaf rfl))
    (.next (a := []) (b := ([] : List Name)) (by intro u hu; cases hu) ?_ .nil)
  · intro u hu hr
    have := List.mem_singleton.1 hu
    subst this
    have := hr (.var 1) ⟨.more (.one (b := .func 0) (by simp [Pkg.refs, kept, Ref.plain])) (by simp [Pkg.refs, kept, Ref.plain]), rfl⟩
    cases this
  · rintro w ⟨hr, hw⟩
    obtain ⟨x, hx, hxw⟩ := hr.first
    have : x = .func 0 := by simpa [Pkg.refs, kept, Ref.plain] using hx
    subst this
    rcases hxw with rfl | hr
    · cases hw
    obtain ⟨x, hx, hxw⟩ := hr.first
    have : x = .var 1 := by simpa [Pkg.refs, kept, Ref.plain] using hx
    subst this
    rcases hxw with rfl | hr
    · simp
    · obtain ⟨x, hx, _⟩ := hr.first; cases hx

example : (∃ l', kept.Compiled l') ∧ ∀ l', kept.Compiled l' → l'.filter Name.user = [.var 1, .var 0] :=
  C91_order_partial kept kept_declared kept_tidy _ kept_source

/-! ### `init` functions -/

theorem inits_user {ds : List Decl} {x : Init} (h : x ∈ inits ds) : ∃ k, x = .user k := by
  obtain ⟨d, _, hd⟩ := List.mem_filterMap.1 h
  split at hd
  · cases hd; exact ⟨_, rfl⟩
  · cases hd

theorem inits_append (a b : List Decl) : inits (a ++ b) = inits a ++ inits b := List.filterMap_append

/-- Is it the user's? -/
def Init.isUser : Init → Bool
  | .user _ => true
  | _ => false

theorem inits_filter (ds : List Decl) : (inits ds).filter Init.isUser = inits ds := by
  refine List.filter_eq_self.2 ?_
  intro x hx
  obtain ⟨k, rfl⟩ := inits_user hx
  rfl

theorem inits_filter_not (ds : List Decl) : (inits ds).filter (fun x => !x.isUser) = [] := by
  refine List.filter_eq_nil_iff.2 ?_
  intro x hx
  obtain ⟨k, rfl⟩ := inits_user hx
  simp [Init.isUser]

/-- What is added to a file. -/
theorem mid_filter (p : Pkg) (g : Nat → Bool) (i : Nat) (ds : List Decl) :
    (if p.infos ds = [] then [] else (if p.hasValues g ds then [.values i] else []) ++ [.register i]).filter Init.isUser = [] := by
  split
  · rfl
  · split <;> rfl

theorem fileInits_user (p : Pkg) (g : Nat → Bool) (i : Nat) (ds : List Decl) : (p.fileInits g i ds).filter Init.isUser = inits ds := by
  unfold Pkg.fileInits
  rw [List.filter_append, List.filter_append, mid_filter, inits_filter, inits_filter, List.append_nil, ← inits_append, List.take_append_drop]

theorem blocks_user (p : Pkg) (g : Nat → Bool) (l : List (List Decl)) (k : Nat) :
    (((l.zipIdx k).map fun x => p.fileInits g x.2 x.1).flatten).filter Init.isUser = (l.map inits).flatten := by
  induction l generalizing k with
  | nil => rfl
  | cons ds l ih =>
    simp only [List.zipIdx_cons, List.map_cons, List.flatten_cons, List.filter_append, fileInits_user, ih]

theorem fileInits_other {p : Pkg} {g : Nat → Bool} {i : Nat} {ds : List Decl} : (p.fileInits g i ds).filter (fun x => !x.isUser) =
    if p.infos ds = [] then [] else (if p.hasValues g ds then [.values i] else []) ++ [.register i] := by
  unfold Pkg.fileInits
  rw [List.filter_append, List.filter_append, inits_filter_not, inits_filter_not, List.append_nil, List.nil_append]
  split
  · rfl
  · split <;> rfl

theorem blocks_other (p : Pkg) (g : Nat → Bool) (l : List (List Decl)) (k : Nat) :
    let r := (((l.zipIdx k).map fun x => p.fileInits g x.2 x.1).flatten).filter (fun x => !x.isUser)
    r.Nodup ∧ ∀ x ∈ r, ∃ i, k ≤ i ∧ (x = .values i ∨ x = .register i) := by
  induction l generalizing k with
  | nil => exact ⟨List.nodup_nil, by intro x hx; cases hx⟩
  | cons ds l ih =>
    obtain ⟨h1, h2⟩ := ih (k + 1)
    simp only [List.zipIdx_cons, List.map_cons, List.flatten_cons, List.filter_append, fileInits_other] at h1 h2 ⊢
    have hmem : ∀ x ∈ (if p.infos ds = [] then [] else (if p.hasValues g ds then [.values k] else []) ++ [.register k] : List Init),
        x = .values k ∨ x = .register k := by
      intro x hx
      split at hx
      · cases hx
      · split at hx
        · simpa using hx
        · exact .inr (by simpa using hx)
    refine ⟨List.nodup_append.2 ⟨?_, h1, ?_⟩, ?_⟩
    · split
      · exact List.nodup_nil
      · split <;> simp
    · intro a ha b hb hab
      subst hab
      obtain ⟨i, hi, hx⟩ := h2 a hb
      rcases hmem a ha with rfl | rfl <;> rcases hx with hx | hx <;> cases hx <;> omega
    · intro x hx
      rcases List.mem_append.1 hx with hx | hx
      · exact ⟨k, Nat.le_refl _, hmem x hx⟩
      · obtain ⟨i, hi, hx⟩ := h2 x hx
        exact ⟨i, by omega, hx⟩

theorem nodup_parts {α} {l : List α} {q : α → Bool} (h1 : (l.filter q).Nodup) (h2 : (l.filter fun x => !q x).Nodup) : l.Nodup := by
  induction l with
  | nil => exact List.nodup_nil
  | cons a l ih =>
    cases hq : q a with
    | true =>
      simp only [List.filter_cons, hq, Bool.not_true, if_true, Bool.false_eq_true, if_false] at h1 h2
      refine List.nodup_cons.2 ⟨?_, ih (List.nodup_cons.1 h1).2 h2⟩
      intro hm
      exact (List.nodup_cons.1 h1).1 (List.mem_filter.2 ⟨hm, hq⟩)
    | false =>
      simp only [List.filter_cons, hq, Bool.not_false, if_true, Bool.false_eq_true, if_false] at h1 h2
      refine List.nodup_cons.2 ⟨?_, ih h1 (List.nodup_cons.1 h2).2⟩
      intro hm
      exact (List.nodup_cons.1 h2).1 (List.mem_filter.2 ⟨hm, by rw [hq]; rfl⟩)

theorem pair_sub {α} {a b : List α} {x y : α} (hx : x ∈ a) (hy : y ∈ b) : [x, y].Sublist (a ++ b) :=
  (List.singleton_sublist.2 hx).append (List.singleton_sublist.2 hy)

theorem block_mem {α β} {f : α × Nat → List β} {l : List α} {i k : Nat} {a : α} {x : β} (h : l[i]? = some a) (hx : x ∈ f (a, k + i)) :
    x ∈ ((l.zipIdx k).map f).flatten := by
  refine List.mem_flatten.2 ⟨_, List.mem_map.2 ⟨(a, k + i), ?_, rfl⟩, hx⟩
  refine List.mem_iff_getElem?.2 ⟨i, ?_⟩
  rw [List.getElem?_zipIdx, h]
  rfl

theorem blocks_lt {α β} {f : α × Nat → List β} {l : List α} {i j k : Nat} {a b : α} {x y : β} (hi : l[i]? = some a) (hj : l[j]? = some b)
    (hij : i < j) (hx : x ∈ f (a, k + i)) (hy : y ∈ f (b, k + j)) : [x, y].Sublist ((l.zipIdx k).map f).flatten := by
  induction l generalizing i j k with
  | nil => cases hi
  | cons c l ih =>
    cases j with
    | zero => omega
    | succ j =>
      rw [List.getElem?_cons_succ] at hj
      rw [List.zipIdx_cons, List.map_cons, List.flatten_cons]
      cases i with
      | zero =>
        cases hi
        exact pair_sub hx (block_mem hj (by rw [show k + 1 + j = k + (j + 1) by omega]; exact hy))
      | succ i =>
        rw [List.getElem?_cons_succ] at hi
        refine List.Sublist.trans (ih hi hj (by omega) ?_ ?_) (List.sublist_append_right _ _)
        · rw [show k + 1 + i = k + (i + 1) by omega]; exact hx
        · rw [show k + 1 + j = k + (j + 1) by omega]; exact hy

theorem blocks_eq {α β} {f : α × Nat → List β} {l : List α} {i k : Nat} {a : α} {s : List β} (hi : l[i]? = some a)
    (hs : s.Sublist (f (a, k + i))) : s.Sublist ((l.zipIdx k).map f).flatten := by
  induction l generalizing i k with
  | nil => cases hi
  | cons c l ih =>
    rw [List.zipIdx_cons, List.map_cons, List.flatten_cons]
    cases i with
    | zero => cases hi; exact List.Sublist.trans hs (List.sublist_append_left _ _)
    | succ i =>
      rw [List.getElem?_cons_succ] at hi
      exact List.Sublist.trans (ih hi (by rw [show k + 1 + i = k + (i + 1) by omega]; exact hs)) (List.sublist_append_right _ _)

/-- **C91** (`init` functions): the user's `init` functions run in the order of the source, each once, and nothing runs twice. The code that
    puts the traps of file `i` in place has run before an `init` function of file `j` exactly when file `i` comes before file `j`, or is
    the same and the `init` function is not the first declaration of the file: from an `init` function, calls of functions declared in
    files before are intercepted, calls of functions declared in files behind are not. -/
theorem C91_inits (p : Pkg) (generic : Nat → Bool) (hn : (p.files.map inits).flatten.Nodup) :
    (p.inits' generic).filter Init.isUser = (p.files.map inits).flatten ∧ (p.inits' generic).Nodup ∧
    ∀ (i j n k : Nat) (di dj : List Decl), p.files[i]? = some di → p.infos di ≠ [] → p.files[j]? = some dj → dj[n]? = some (.init k) →
      ([Init.register i, .user k].Sublist (p.inits' generic) ↔ i < j ∨ (i = j ∧ n ≠ 0)) ∧
      ([Init.user k, .register i].Sublist (p.inits' generic) ↔ j < i ∨ (i = j ∧ n = 0)) := by
  have hu := blocks_user p generic p.files 0
  have hnd : (p.inits' generic).Nodup := nodup_parts (q := Init.isUser) (by unfold Pkg.inits'; rw [hu]; exact hn) (blocks_other p generic p.files 0).1
  refine ⟨hu, hnd, ?_⟩
  intro i j n k di dj hi hinfo hj hk
  have reg : Init.register i ∈ p.fileInits generic i di := by
    unfold Pkg.fileInits
    rw [if_neg hinfo]
    simp
  have hmem : Decl.init k ∈ dj := List.mem_of_getElem? hk
  have usr : Init.user k ∈ p.fileInits generic j dj := by
    have : Init.user k ∈ inits dj := List.mem_filterMap.2 ⟨_, hmem, rfl⟩
    rw [← fileInits_user p generic j dj] at this
    exact (List.mem_filter.1 this).1
  have fwd : (i < j ∨ (i = j ∧ n ≠ 0)) → [Init.register i, .user k].Sublist (p.inits' generic) := by
    rintro (h | ⟨rfl, h⟩)
    · exact blocks_lt (f := fun x => p.fileInits generic x.2 x.1) hi hj h (by rw [Nat.zero_add]; exact reg) (by rw [Nat.zero_add]; exact usr)
    · refine blocks_eq (f := fun x => p.fileInits generic x.2 x.1) hi ?_
      rw [hi] at hj
      cases hj
      rw [Nat.zero_add]
      show [Init.register i, .user k].Sublist (p.fileInits generic i di)
      unfold Pkg.fileInits
      rw [if_neg hinfo]
      refine pair_sub (by simp) (List.mem_filterMap.2 ⟨.init k, ?_, rfl⟩)
      obtain ⟨m, rfl⟩ : ∃ m, n = m + 1 := ⟨n - 1, by omega⟩
      refine List.mem_of_getElem? (i := m) ?_
      rw [List.getElem?_drop, Nat.add_comm]
      exact hk
  have bwd : (j < i ∨ (i = j ∧ n = 0)) → [Init.user k, .register i].Sublist (p.inits' generic) := by
    rintro (h | ⟨rfl, rfl⟩)
    · exact blocks_lt (f := fun x => p.fileInits generic x.2 x.1) hj hi h (by rw [Nat.zero_add]; exact usr) (by rw [Nat.zero_add]; exact reg)
    · refine blocks_eq (f := fun x => p.fileInits generic x.2 x.1) hi ?_
      rw [hi] at hj
      cases hj
      rw [Nat.zero_add]
      show [Init.user k, .register i].Sublist (p.fileInits generic i di)
      unfold Pkg.fileInits
      rw [if_neg hinfo, List.append_assoc]
      refine pair_sub (List.mem_filterMap.2 ⟨.init k, ?_, rfl⟩) (by simp)
      refine List.mem_of_getElem? (i := 0) ?_
      rw [List.getElem?_take_of_lt (by omega)]
      exact hk
  refine ⟨⟨?_, fwd⟩, ⟨?_, bwd⟩⟩
  · intro h
    refine Classical.byContradiction fun hc => ?_
    exact sublist_swap hnd h (bwd (by omega))
  · intro h
    refine Classical.byContradiction fun hc => ?_
    exact sublist_swap hnd h (fwd (by omega))

/-- `init` of the second file, declared first there, runs behind the traps of the first file, and before those of its own. -/
def twoInits : Pkg := { kept with files := [[.func 0, .init 0], [.init 1, .func 1]], trapped := fun _ => true }

example : twoInits.inits' (fun _ => false) = [.values 0, .register 0, .user 0, .user 1, .values 1, .register 1] := by decide

example : [Init.register 0, .user 1].Sublist (twoInits.inits' fun _ => false) ∧ ¬ [Init.register 1, .user 0].Sublist (twoInits.inits' fun _ => false) := by
  have h := (C91_inits twoInits (fun _ => false) (by decide)).2.2
  exact ⟨(h 0 1 0 1 _ _ rfl (by decide) rfl rfl).1.2 (.inl (by decide)),
    fun hs => absurd ((h 1 0 1 0 _ _ rfl (by decide) rfl rfl).1.1 hs) (by decide)⟩

/-! ### Links -/

theorem prefix_self (a b : Str) : a.isPrefixOf (a ++ b) = true := List.isPrefixOf_iff_prefix.2 (List.prefix_append a b)

open RegCode in
/-- **C91** (links): for every file, `__xgo_init_i` is looked at, and of what it assigns (C89: the four stubs, to themselves), each becomes
    the function of the runtime of its kind, never another's. -/
theorem C91_links (i : Nat) : linked (Names.ofFile i).init = true ∧
    link (Names.ofFile i).register = some "XgoRegister".toList ∧ link (Names.ofFile i).trapFunc = some "XgoTrap".toList ∧
    link (Names.ofFile i).trapVar = some "XgoTrapVar".toList ∧ link (Names.ofFile i).trapVarPtr = some "XgoTrapVarPtr".toList := by
  obtain ⟨c, t, hd⟩ : ∃ c t, FuncTrap.dec i = c :: t := by
    cases h : FuncTrap.dec i with
    | nil => exact absurd h Nat.toDigits_ne_nil
    | cons c t => exact ⟨c, t, rfl⟩
  have hc : ('v' == c) = false := by
    have := Support.digit_toDigits (n := i) (c := c) (by have : c ∈ FuncTrap.dec i := by { rw [hd]; simp }; exact this)
    refine beq_eq_false_iff_ne.2 ?_
    intro h
    rw [← h] at this
    exact absurd this (by decide)
  unfold Names.ofFile
  simp only [hd]
  refine ⟨prefix_self _ _, ?_, ?_, ?_, ?_⟩ <;> simp [link, findLink, links, List.isPrefixOf, hc]

/-- **C91** (links): functions with other names are left alone, whatever they assign. -/
theorem C91_links_only (fn : Str) (h : ¬ "__xgo_init_".toList <+: fn) : linked fn = false := by
  cases hl : linked fn with
  | false => rfl
  | true => exact absurd (List.isPrefixOf_iff_prefix.1 hl) h

example : linked "__xgo_initialise".toList = false := C91_links_only _ (by decide)

end Verif.Instrument.InitOrder
