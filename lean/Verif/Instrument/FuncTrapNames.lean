/-
Properties of the names xgo generates: parameters (C40), package level identifiers (C53), what is reported about a
function (C54), and the build cache key (C51).
-/
import Verif.Instrument.FuncTrapSpec
import Mathlib.Data.List.Nodup

namespace Verif.Instrument.FuncTrap
open Verif.Support (Str isDig digit_toDigits)

/-! ### Numerals -/

theorem dec_inj {m n : Nat} (h : dec m = dec n) : m = n := by
  have := congrArg (Nat.ofDigitChars 10 · 0) h
  simpa [dec] using this

theorem dec_free {n : Nat} : '_' ∉ dec n := by
  intro h
  have := digit_toDigits h
  revert this; decide

/-! ### Parameters, in place -/

theorem fieldNames_eq (pre : Str) : ∀ (fs : List (List Str)) (i : Nat),
    fieldNames pre fs i = ((Spec.declared fs).zipIdx i).map fun x => x.1.getD (pre ++ dec x.2) := by
  intro fs
  induction fs with
  | nil => intro i; simp [fieldNames, Spec.declared]
  | cons ns fs ih =>
    intro i
    have hd : Spec.declared (ns :: fs) = (match ns with
        | [] => [none]
        | n :: ns => (n :: ns).map fun n => if n = [] ∨ n = "_".toList then none else some n) ++ Spec.declared fs := rfl
    rw [hd]
    cases ns with
    | nil =>
      rw [fieldNames, ih]
      simp
    | cons n ns =>
      rw [fieldNames, ih]
      simp only
      rw [List.zipIdx_append, List.map_append, List.length_map, List.zipIdx_map, List.map_map]
      congr 1
      refine List.map_congr_left fun x _ => ?_
      simp only [Function.comp_apply, Prod.map_fst, Prod.map_snd, id, blank, Bool.or_eq_true, decide_eq_true_eq]
      split <;> rfl

/-- The names given are distinct if those declared are and are not like the generated ones. -/
theorem nodup_getD (pre : Str) : ∀ (l : List (Option Str)) (i : Nat), (l.filterMap id).Nodup →
    (∀ n, some n ∈ l → ¬ ∃ rest, n = pre ++ rest) →
    ((l.zipIdx i).map fun x => x.1.getD (pre ++ dec x.2)).Nodup := by
  intro l
  induction l with
  | nil => intro i _ _; simp
  | cons a l ih =>
    intro i h1 h2
    rw [List.zipIdx_cons, List.map_cons, List.nodup_cons]
    have h2' : ∀ n, some n ∈ l → ¬ ∃ rest, n = pre ++ rest := fun n hn => h2 n (List.mem_cons_of_mem _ hn)
    cases a with
    | none =>
      refine ⟨?_, ih _ (by simpa using h1) h2'⟩
      intro hm
      rw [List.mem_map] at hm
      obtain ⟨⟨o, k⟩, hmem, he⟩ := hm
      have hk := List.mem_zipIdx hmem
      cases o with
      | none =>
        simp only [Option.getD_none] at he
        have := dec_inj (List.append_cancel_left he)
        omega
      | some n =>
        simp only [Option.getD_some, Option.getD_none] at he
        exact h2' n (List.fst_mem_of_mem_zipIdx hmem) ⟨_, he⟩
    | some m =>
      rw [List.filterMap_cons_some (by rfl), List.nodup_cons] at h1
      refine ⟨?_, ih _ h1.2 h2'⟩
      intro hm
      rw [List.mem_map] at hm
      obtain ⟨⟨o, k⟩, hmem, he⟩ := hm
      cases o with
      | none =>
        simp only [Option.getD_some, Option.getD_none] at he
        exact h2 m List.mem_cons_self ⟨_, he.symm⟩
      | some n =>
        simp only [Option.getD_some] at he
        subst he
        exact h1.1 (List.mem_filterMap.2 ⟨some n, List.fst_mem_of_mem_zipIdx hmem, rfl⟩)

/-- **C40.** Functions rewritten in place: every receiver, parameter and result has a name afterwards; those declared
    with a name keep it. -/
theorem C40_names_kept (s : Sig) :
    List.Forall₂ (fun n d => n ≠ [] ∧ n ≠ "_".toList ∧ ∀ m, d = some m → n = m)
      ((sigNames s).1 ++ (sigNames s).2.1 ++ (sigNames s).2.2)
      (Spec.declared s.recv ++ Spec.declared s.params ++ Spec.declared s.results) := by
  have key : ∀ (pre : Str) (fs : List (List Str)), 2 ≤ pre.length →
      List.Forall₂ (fun n d => n ≠ [] ∧ n ≠ "_".toList ∧ ∀ m, d = some m → n = m) (fieldNames pre fs 0)
        (Spec.declared fs) := by
    intro pre fs hpre
    rw [fieldNames_eq]
    have hdecl : ∀ m, some m ∈ Spec.declared fs → m ≠ [] ∧ m ≠ "_".toList := by
      intro m hm
      simp only [Spec.declared, List.mem_flatten, List.mem_map] at hm
      obtain ⟨l, ⟨ns, _, rfl⟩, hm⟩ := hm
      cases ns with
      | nil => simp at hm
      | cons n ns =>
        simp only [List.mem_map] at hm
        obtain ⟨x, _, hx⟩ := hm
        split at hx
        · cases hx
        · rename_i hne
          cases hx
          exact not_or.1 hne
    generalize Spec.declared fs = l at hdecl
    generalize 0 = i
    induction l generalizing i with
    | nil => exact List.Forall₂.nil
    | cons d l ih =>
      rw [List.zipIdx_cons, List.map_cons]
      refine List.Forall₂.cons ?_ (ih (fun m hm => hdecl m (List.mem_cons_of_mem _ hm)) (i + 1))
      cases d with
      | none =>
        refine ⟨?_, ?_, fun m h => nomatch h⟩
        · intro h
          have : (pre ++ dec i).length = 0 := congrArg List.length h
          rw [List.length_append] at this
          omega
        · intro h
          have : (pre ++ dec i).length = 1 := congrArg List.length h
          rw [List.length_append] at this
          omega
      | some m => exact ⟨(hdecl m List.mem_cons_self).1, (hdecl m List.mem_cons_self).2, fun m' h => by cases h; rfl⟩
  exact List.rel_append (List.rel_append (key _ _ (by decide)) (key _ _ (by decide))) (key _ _ (by decide))

example : sigNames { recv := [["_".toList]], params := [["a".toList, "_".toList], ["b".toList]], results := [[], []] } =
    (["__xgo_auto_rcv_0".toList], ["a".toList, "__xgo_auto_param_1".toList, "b".toList],
      ["__xgo_auto_res_0".toList, "__xgo_auto_res_1".toList]) := by decide +kernel

/-- Names given to the fields of one list: declared, or built from the prefix. -/
theorem mem_fieldNames {pre n : Str} {fs : List (List Str)} (h : n ∈ fieldNames pre fs 0) :
    some n ∈ Spec.declared fs ∨ ∃ rest, n = pre ++ rest := by
  rw [fieldNames_eq, List.mem_map] at h
  obtain ⟨⟨o, k⟩, hm, rfl⟩ := h
  cases o with
  | none => exact Or.inr ⟨_, rfl⟩
  | some m => exact Or.inl (List.fst_mem_of_mem_zipIdx hm)

theorem prefixes_differ {a b x y : Str} (hab : a.length ≤ b.length) (h : ¬ a <+: b) : a ++ x ≠ b ++ y := by
  intro he
  exact h (List.prefix_of_prefix_length_le ⟨x, he⟩ ⟨y, rfl⟩ hab)

/-- **C40.** Functions rewritten in place: the names of receiver, parameters and results are all different, if those
    declared are and none of them begins with `__xgo_`. -/
theorem C40_distinct (s : Sig) (hd : Spec.DistinctNames s)
    (hr : ∀ n, some n ∈ Spec.declared s.recv ++ Spec.declared s.params ++ Spec.declared s.results →
      ¬ Spec.Reserved n) :
    ((sigNames s).1 ++ (sigNames s).2.1 ++ (sigNames s).2.2).Nodup := by
  unfold Spec.DistinctNames at hd
  rw [List.filterMap_append, List.filterMap_append, List.nodup_append, List.nodup_append] at hd
  obtain ⟨⟨h1, h2, h12⟩, h3, h123⟩ := hd
  simp only [List.mem_append, or_imp, forall_and] at hr
  obtain ⟨⟨r1, r2⟩, r3⟩ := hr
  have res : ∀ (pre n : Str), "__xgo_".toList <+: pre → ¬ Spec.Reserved n → ¬ ∃ rest, n = pre ++ rest := by
    rintro pre n ⟨t, ht⟩ hn ⟨rest, rfl⟩
    exact hn ⟨t ++ rest, by rw [← ht, List.append_assoc]⟩
  have p1 : "__xgo_".toList <+: recvPrefix := ⟨"auto_rcv_".toList, by decide⟩
  have p2 : "__xgo_".toList <+: paramPrefix := ⟨"auto_param_".toList, by decide⟩
  have p3 : "__xgo_".toList <+: resultPrefix := ⟨"auto_res_".toList, by decide⟩
  have n1 : (sigNames s).1.Nodup := by
    show (fieldNames recvPrefix s.recv 0).Nodup
    rw [fieldNames_eq]
    exact nodup_getD _ _ _ h1 fun n hn => res _ _ p1 (r1 n hn)
  have n2 : (sigNames s).2.1.Nodup := by
    show (fieldNames paramPrefix s.params 0).Nodup
    rw [fieldNames_eq]
    exact nodup_getD _ _ _ h2 fun n hn => res _ _ p2 (r2 n hn)
  have n3 : (sigNames s).2.2.Nodup := by
    show (fieldNames resultPrefix s.results 0).Nodup
    rw [fieldNames_eq]
    exact nodup_getD _ _ _ h3 fun n hn => res _ _ p3 (r3 n hn)
  -- two lists with different prefixes
  have cross : ∀ (pa pb : Str) (fa fb : List (List Str)), "__xgo_".toList <+: pa → "__xgo_".toList <+: pb →
      (∀ x y : Str, pa ++ x ≠ pb ++ y) →
      (∀ n, some n ∈ Spec.declared fa → ¬ Spec.Reserved n) → (∀ n, some n ∈ Spec.declared fb → ¬ Spec.Reserved n) →
      (∀ n, some n ∈ Spec.declared fa → some n ∈ Spec.declared fb → False) →
      ∀ a ∈ fieldNames pa fa 0, ∀ b ∈ fieldNames pb fb 0, a ≠ b := by
    intro pa pb fa fb ha hb hne ra rb hdis a hma b hmb hab
    subst hab
    rcases mem_fieldNames hma with h | h
    · rcases mem_fieldNames hmb with h' | h'
      · exact hdis a h h'
      · exact res _ _ hb (ra a h) h'
    · rcases mem_fieldNames hmb with h' | h'
      · exact res _ _ ha (rb a h') h
      · obtain ⟨x, hx⟩ := h
        obtain ⟨y, hy⟩ := h'
        exact hne x y (hx ▸ hy)
  have fm : ∀ {l : List (Option Str)} {n : Str}, some n ∈ l → n ∈ l.filterMap id :=
    fun h => List.mem_filterMap.2 ⟨_, h, rfl⟩
  rw [List.nodup_append, List.nodup_append]
  refine ⟨⟨n1, n2, ?_⟩, n3, ?_⟩
  · exact cross _ _ _ _ p1 p2 (fun x y => prefixes_differ (by decide) (by decide)) r1 r2
      fun n ha hb => h12 n (fm ha) n (fm hb) rfl
  · intro a ha b hb
    rcases List.mem_append.1 ha with ha | ha
    · exact cross _ _ _ _ p1 p3 (fun x y => prefixes_differ (by decide) (by decide)) r1 r3
        (fun n ha hb => h123 n (List.mem_append_left _ (fm ha)) n (fm hb) rfl) a ha b hb
    · exact cross _ _ _ _ p2 p3 (fun x y => fun e => prefixes_differ (a := resultPrefix) (b := paramPrefix) (by decide)
          (by decide) e.symm) r2 r3
        (fun n ha hb => h123 n (List.mem_append_right _ (fm ha)) n (fm hb) rfl) a ha b hb

example :
    Spec.DistinctNames
      { recv := [["_".toList]], params := [["a".toList, "_".toList], ["b".toList]], results := [[], []] } ∧
    ∀ n, some n ∈ Spec.declared [["a".toList, "_".toList], ["b".toList]] → ¬ Spec.Reserved n := by
  refine ⟨by unfold Spec.DistinctNames; decide, ?_⟩
  intro n hn
  have : n = "a".toList ∨ n = "b".toList := by
    revert hn; simp [Spec.declared]
  rcases this with rfl | rfl <;> (rintro ⟨rest, h⟩; simp at h)

/-! ### Parameters, in the compiler -/

theorem nextNameLoop_fresh (pre suf : Str) (preset : List Str) : ∀ (fuel k : Nat),
    (preset.filter fun x => decide (pre.length + k + suf.length ≤ x.length)).length ≤ fuel →
    nextNameLoop pre suf preset fuel k ∉ preset ∧
      ∃ j, nextNameLoop pre suf preset fuel k = pre ++ List.replicate j '_' ++ suf := by
  intro fuel
  induction fuel with
  | zero =>
    intro k h
    refine ⟨?_, k, rfl⟩
    intro hm
    have : pre ++ List.replicate k '_' ++ suf ∈
        preset.filter fun x => decide (pre.length + k + suf.length ≤ x.length) :=
      List.mem_filter.2 ⟨hm, by simp; omega⟩
    rw [List.length_eq_zero_iff.1 (Nat.le_zero.1 h)] at this
    exact absurd this (by simp)
  | succ fuel ih =>
    intro k h
    rw [nextNameLoop]
    split
    · rename_i hc
      rw [List.contains_iff_mem] at hc
      refine ih (k + 1) ?_
      have h1 : pre ++ List.replicate k '_' ++ suf ∈
          preset.filter fun x => decide (pre.length + k + suf.length ≤ x.length) := List.mem_filter.2 ⟨hc, by simp; omega⟩
      have h2 : preset.filter (fun x => decide (pre.length + (k + 1) + suf.length ≤ x.length)) =
          (preset.filter fun x => decide (pre.length + k + suf.length ≤ x.length)).filter
            fun x => decide (pre.length + (k + 1) + suf.length ≤ x.length) := by
        rw [List.filter_filter]
        refine List.filter_congr fun x _ => ?_
        rw [Bool.eq_iff_iff]
        simp only [decide_eq_true_eq, Bool.and_eq_true]
        omega
      rw [h2]
      have h3 := List.length_filter_lt_length_iff_exists (p := fun x : Str =>
        decide (pre.length + (k + 1) + suf.length ≤ x.length))
        (l := preset.filter fun x => decide (pre.length + k + suf.length ≤ x.length))
      have := h3.2 ⟨_, h1, by simp; omega⟩
      omega
    · rename_i hc
      exact ⟨fun hm => hc (List.contains_iff_mem.2 hm), k, rfl⟩

/-- A generated name is new. -/
theorem nextName_fresh (pre suf : Str) (preset : List Str) : nextName pre suf preset ∉ preset :=
  (nextNameLoop_fresh pre suf preset preset.length 0 (List.length_filter_le _ _)).1

/-- The names declared in a list of fields of package syntax. -/
def cdecl (fs : List (Option Str)) : List Str := fs.filterMap fun f => f.filter fun n => !blank n

theorem fillFieldNames_spec (pre : Str) : ∀ (fs : List (Option Str)) (i : Nat) (preset : List Str),
    (∀ n ∈ cdecl fs, n ∈ preset) →
    List.Forall₂ (fun n f => (∃ m, f = some m ∧ blank m = false ∧ n = m) ∨
        ((f = none ∨ ∃ m, f = some m ∧ blank m = true) ∧ n ∉ preset ∧ ∃ rest, n = pre ++ rest))
      (fillFieldNames pre fs i preset).1 fs ∧
    (∀ n ∈ preset, n ∈ (fillFieldNames pre fs i preset).2) ∧
    (∀ n ∈ (fillFieldNames pre fs i preset).1, n ∈ (fillFieldNames pre fs i preset).2) ∧
    (∀ n ∈ (fillFieldNames pre fs i preset).1, n ∈ cdecl fs ∨ (n ∉ preset ∧ ∃ rest, n = pre ++ rest)) ∧
    ((cdecl fs).Nodup → (fillFieldNames pre fs i preset).1.Nodup) := by
  intro fs
  induction fs with
  | nil => intro i preset _; exact ⟨List.Forall₂.nil, fun _ h => h, by simp [fillFieldNames], by simp [fillFieldNames],
      fun _ => List.nodup_nil⟩
  | cons f fs ih =>
    intro i preset hsub
    have gen : cdecl (f :: fs) = cdecl fs → (f = none ∨ ∃ m, f = some m ∧ blank m = true) →
        (fillFieldNames pre (f :: fs) i preset) =
          (nextName pre (dec i) preset :: (fillFieldNames pre fs (i + 1) (nextName pre (dec i) preset :: preset)).1,
            (fillFieldNames pre fs (i + 1) (nextName pre (dec i) preset :: preset)).2) →
        List.Forall₂ (fun n f => (∃ m, f = some m ∧ blank m = false ∧ n = m) ∨
          ((f = none ∨ ∃ m, f = some m ∧ blank m = true) ∧ n ∉ preset ∧ ∃ rest, n = pre ++ rest))
          (fillFieldNames pre (f :: fs) i preset).1 (f :: fs) ∧
        (∀ n ∈ preset, n ∈ (fillFieldNames pre (f :: fs) i preset).2) ∧
        (∀ n ∈ (fillFieldNames pre (f :: fs) i preset).1, n ∈ (fillFieldNames pre (f :: fs) i preset).2) ∧
        (∀ n ∈ (fillFieldNames pre (f :: fs) i preset).1, n ∈ cdecl (f :: fs) ∨
          (n ∉ preset ∧ ∃ rest, n = pre ++ rest)) ∧
        ((cdecl (f :: fs)).Nodup → (fillFieldNames pre (f :: fs) i preset).1.Nodup) := by
      intro hc hf he
      rw [he, hc]
      rw [hc] at hsub
      obtain ⟨j, hj⟩ := (nextNameLoop_fresh pre (dec i) preset preset.length 0 (List.length_filter_le _ _)).2
      have hx := nextName_fresh pre (dec i) preset
      have hpre : ∃ rest, nextName pre (dec i) preset = pre ++ rest :=
        ⟨List.replicate j '_' ++ dec i, by rw [← List.append_assoc]; exact hj⟩
      generalize nextName pre (dec i) preset = x at hx hpre
      obtain ⟨h1, h2, h3, h4, h5⟩ := ih (i + 1) (x :: preset) fun n hn => List.mem_cons_of_mem _ (hsub n hn)
      refine ⟨List.Forall₂.cons (Or.inr ⟨hf, hx, hpre⟩) (h1.imp ?_), ?_, ?_, ?_, ?_⟩
      · rintro n f (h | ⟨h, hn, hr⟩)
        · exact Or.inl h
        · exact Or.inr ⟨h, fun hm => hn (List.mem_cons_of_mem _ hm), hr⟩
      · exact fun n hn => h2 n (List.mem_cons_of_mem _ hn)
      · intro n hn
        rcases List.mem_cons.1 hn with rfl | hn
        · exact h2 _ List.mem_cons_self
        · exact h3 n hn
      · intro n hn
        rcases List.mem_cons.1 hn with rfl | hn
        · exact Or.inr ⟨hx, hpre⟩
        · rcases h4 n hn with h | ⟨h, hr⟩
          · exact Or.inl h
          · exact Or.inr ⟨fun hm => h (List.mem_cons_of_mem _ hm), hr⟩
      · intro hnd
        refine List.nodup_cons.2 ⟨?_, h5 hnd⟩
        intro hm
        rcases h4 x hm with h | ⟨h, _⟩
        · exact hx (hsub x h)
        · exact h List.mem_cons_self
    cases f with
    | none => exact gen rfl (Or.inl rfl) rfl
    | some m =>
      by_cases hb : blank m = true
      · refine gen ?_ (Or.inr ⟨m, rfl, hb⟩) ?_
        · simp [cdecl, hb]
        · rw [fillFieldNames]; simp only [hb, if_true]
      · have hb' : blank m = false := by simpa using hb
        have hc : cdecl (some m :: fs) = m :: cdecl fs := by
          unfold cdecl
          rw [List.filterMap_cons_some (b := m) (by simp [hb'])]
        have he : fillFieldNames pre (some m :: fs) i preset =
            (m :: (fillFieldNames pre fs (i + 1) preset).1, (fillFieldNames pre fs (i + 1) preset).2) := by
          rw [fillFieldNames]; simp only [hb', if_false, Bool.false_eq_true]
        rw [he, hc]
        rw [hc] at hsub
        have hm := hsub m List.mem_cons_self
        obtain ⟨h1, h2, h3, h4, h5⟩ := ih (i + 1) preset fun n hn => hsub n (List.mem_cons_of_mem _ hn)
        refine ⟨List.Forall₂.cons (Or.inl ⟨m, rfl, hb', rfl⟩) h1, h2, ?_, ?_, ?_⟩
        · intro n hn
          rcases List.mem_cons.1 hn with rfl | hn
          · exact h2 _ hm
          · exact h3 n hn
        · intro n hn
          rcases List.mem_cons.1 hn with rfl | hn
          · exact Or.inl List.mem_cons_self
          · rcases h4 n hn with h | h
            · exact Or.inl (List.mem_cons_of_mem _ h)
            · exact Or.inr h
        · intro hnd
          rw [List.nodup_cons] at hnd
          refine List.nodup_cons.2 ⟨?_, h5 hnd.2⟩
          intro hmm
          rcases h4 m hmm with h | ⟨h, _⟩
          · exact hnd.1 h
          · exact h hm

/-- The names made up by `fillMissingArgNames` for parameters. -/
def IsArgName (k : Nat) (n : Str) : Prop :=
  n = "__xgo_arg_auto_filled_".toList ++ dec k ∨ n = "__xgo_arg_auto_filled_".toList ++ dec k ++ "_blank".toList

theorem isArgName_inj {j k : Nat} {n : Str} (hj : IsArgName j n) (hk : IsArgName k n) : j = k := by
  have take : ∀ (m : Nat) (r : Str), (r = [] ∨ r = "_blank".toList) → (dec m ++ r).takeWhile (· != '_') = dec m := by
    intro m r hr
    have h1 : ∀ c ∈ dec m, (c != '_') = true := by
      intro c hc
      rw [bne_iff_ne]
      rintro rfl
      exact dec_free hc
    rw [List.takeWhile_append_of_pos h1]
    rcases hr with rfl | rfl
    · simp
    · have : "_blank".toList.takeWhile (· != '_') = ([] : Str) := by decide
      rw [this, List.append_nil]
  have key : ∀ m, IsArgName m n → (n.drop 22).takeWhile (· != '_') = dec m := by
    rintro m (rfl | rfl)
    · have : (("__xgo_arg_auto_filled_".toList ++ dec m).drop 22) = dec m ++ [] := by
        rw [List.append_nil]; exact List.drop_left' (by decide)
      rw [this]; exact take m [] (Or.inl rfl)
    · have : (("__xgo_arg_auto_filled_".toList ++ dec m ++ "_blank".toList).drop 22) = dec m ++ "_blank".toList := by
        rw [List.append_assoc]; exact List.drop_left' (by decide)
      rw [this]; exact take m _ (Or.inr rfl)
  exact dec_inj ((key j hj).symm.trans (key k hk))

theorem blank_iff (n : Str) : blank n = true ↔ n = [] ∨ n = "_".toList := by
  simp [blank]

theorem isArgName_reserved {k : Nat} {n : Str} (h : IsArgName k n) :
    Spec.Reserved n ∧ blank n = false ∧ ∃ rest, n = "__xgo_arg_auto_filled_".toList ++ rest := by
  have e : "__xgo_arg_auto_filled_".toList = "__xgo_".toList ++ "arg_auto_filled_".toList := by decide
  have : ∃ rest, n = "__xgo_arg_auto_filled_".toList ++ rest := by
    rcases h with rfl | rfl
    · exact ⟨_, rfl⟩
    · exact ⟨dec k ++ "_blank".toList, List.append_assoc ..⟩
  obtain ⟨rest, rfl⟩ := this
  refine ⟨⟨"arg_auto_filled_".toList ++ rest, ?_⟩, ?_, rest, rfl⟩
  · rw [e, List.append_assoc]
  · rw [Bool.eq_false_iff, ne_eq, blank_iff]
    rintro (h | h)
    · have := congrArg List.length h
      rw [List.length_append] at this
      have e2 : "__xgo_arg_auto_filled_".toList.length = 22 := by decide
      have e3 : ([] : Str).length = 0 := rfl
      omega
    · have := congrArg List.length h
      rw [List.length_append] at this
      have e2 : "__xgo_arg_auto_filled_".toList.length = 22 := by decide
      have e3 : "_".toList.length = 1 := by decide
      omega

theorem fillParams_spec : ∀ (l : List (Option Str)) (i : Nat),
    (∀ n ∈ cdecl l, ¬ Spec.Reserved n) → (cdecl l).Nodup →
    (cdecl ((l.zipIdx i).map fun x => fillName ("__xgo_arg_auto_filled_".toList ++ dec x.2) x.1)).Nodup ∧
    (∀ n ∈ cdecl ((l.zipIdx i).map fun x => fillName ("__xgo_arg_auto_filled_".toList ++ dec x.2) x.1),
      n ∈ cdecl l ∨ ∃ k, i ≤ k ∧ IsArgName k n) := by
  intro l
  induction l with
  | nil => intro i _ _; exact ⟨by simp [cdecl], by simp [cdecl]⟩
  | cons f l ih =>
    intro i hr hnd
    rw [List.zipIdx_cons, List.map_cons]
    have gen : cdecl (f :: l) = cdecl l →
        (∃ n, fillName ("__xgo_arg_auto_filled_".toList ++ dec i) f = some n ∧ IsArgName i n) →
        (cdecl (fillName ("__xgo_arg_auto_filled_".toList ++ dec i) f ::
          (l.zipIdx (i + 1)).map fun x => fillName ("__xgo_arg_auto_filled_".toList ++ dec x.2) x.1)).Nodup ∧
        (∀ n ∈ cdecl (fillName ("__xgo_arg_auto_filled_".toList ++ dec i) f ::
          (l.zipIdx (i + 1)).map fun x => fillName ("__xgo_arg_auto_filled_".toList ++ dec x.2) x.1),
          n ∈ cdecl (f :: l) ∨ ∃ k, i ≤ k ∧ IsArgName k n) := by
      rintro hc ⟨x, hx, hax⟩
      rw [hc] at hr hnd ⊢
      obtain ⟨h1, h2⟩ := ih (i + 1) hr hnd
      have hb := (isArgName_reserved hax).2.1
      have he : ∀ t, cdecl (some x :: t) = x :: cdecl t := by
        intro t; unfold cdecl; rw [List.filterMap_cons_some (b := x) (by simp [hb])]
      rw [hx, he]
      refine ⟨List.nodup_cons.2 ⟨?_, h1⟩, ?_⟩
      · intro hm
        rcases h2 x hm with h | ⟨k, hk, hak⟩
        · exact hr x h (isArgName_reserved hax).1
        · have := isArgName_inj hax hak
          omega
      · intro n hn
        rcases List.mem_cons.1 hn with rfl | hn
        · exact Or.inr ⟨i, Nat.le_refl _, hax⟩
        · rcases h2 n hn with h | ⟨k, hk, hak⟩
          · exact Or.inl h
          · exact Or.inr ⟨k, by omega, hak⟩
    cases f with
    | none => exact gen rfl ⟨_, rfl, Or.inl rfl⟩
    | some m =>
      by_cases h1 : m = "_".toList
      · refine gen ?_ ⟨_, if_pos h1, Or.inr rfl⟩
        simp [cdecl, blank, h1]
      · have hf : fillName ("__xgo_arg_auto_filled_".toList ++ dec i) (some m) = some m := if_neg h1
        rw [hf]
        by_cases hb : blank m = true
        · have he : ∀ t, cdecl (some m :: t) = cdecl t := by intro t; simp [cdecl, hb]
          rw [he] at hr hnd ⊢
          rw [he]
          obtain ⟨h1, h2⟩ := ih (i + 1) hr hnd
          refine ⟨h1, fun n hn => ?_⟩
          rcases h2 n hn with h | ⟨k, hk, hak⟩
          · exact Or.inl h
          · exact Or.inr ⟨k, by omega, hak⟩
        · have hb' : blank m = false := by simpa using hb
          have he : ∀ t, cdecl (some m :: t) = m :: cdecl t := by
            intro t; unfold cdecl; rw [List.filterMap_cons_some (b := m) (by simp [hb'])]
          rw [he] at hr hnd ⊢
          rw [he]
          rw [List.nodup_cons] at hnd
          obtain ⟨h1, h2⟩ := ih (i + 1) (fun n hn => hr n (List.mem_cons_of_mem _ hn)) hnd.2
          refine ⟨List.nodup_cons.2 ⟨?_, h1⟩, ?_⟩
          · intro hm
            rcases h2 m hm with h | ⟨k, hk, hak⟩
            · exact hnd.1 h
            · exact hr m List.mem_cons_self (isArgName_reserved hak).1
          · intro n hn
            rcases List.mem_cons.1 hn with rfl | hn
            · exact Or.inl List.mem_cons_self
            · rcases h2 n hn with h | ⟨k, hk, hak⟩
              · exact Or.inl (List.mem_cons_of_mem _ h)
              · exact Or.inr ⟨k, by omega, hak⟩

theorem cdeclared_eq (s : CSig) :
    Spec.cdeclared s = cdecl s.recv.toList ++ cdecl s.params ++ cdecl s.results := by
  unfold Spec.cdeclared cdecl
  rw [← List.filterMap_append, ← List.filterMap_append]
  refine List.filterMap_congr fun f _ => ?_
  cases f with
  | none => rfl
  | some n =>
    simp only [Option.filter]
    by_cases h : n = [] ∨ n = "_".toList
    · rw [if_pos h, if_neg]; rw [(blank_iff n).2 h]; simp
    · rw [if_neg h, if_pos]
      rw [Bool.not_eq_true', Bool.eq_false_iff, ne_eq, blank_iff]; exact h

theorem cdecl_mem_filterMap {fs : List (Option Str)} {n : Str} (h : n ∈ cdecl fs) : n ∈ fs.filterMap id := by
  unfold cdecl at h
  rw [List.mem_filterMap] at h ⊢
  obtain ⟨f, hf, h⟩ := h
  exact ⟨f, hf, by rw [Option.filter_eq_some_iff] at h; exact h.1⟩

theorem mem_cdecl {fs : List (Option Str)} {n : Str} : n ∈ cdecl fs ↔ some n ∈ fs ∧ blank n = false := by
  unfold cdecl
  rw [List.mem_filterMap]
  constructor
  · rintro ⟨f, hf, h⟩
    rw [Option.filter_eq_some_iff] at h
    exact ⟨h.1 ▸ hf, by simpa using h.2⟩
  · rintro ⟨hf, h⟩
    exact ⟨some n, hf, by rw [Option.filter_eq_some_iff]; exact ⟨rfl, by simpa using h⟩⟩

/-- The name made up by `fillMissingArgNames` for a receiver. -/
def IsRecvName (n : Str) : Prop :=
  n = "__xgo_recv_auto_filled".toList ∨ n = "__xgo_recv_auto_filled".toList ++ "_blank".toList

theorem isRecvName_reserved {n : Str} (h : IsRecvName n) :
    Spec.Reserved n ∧ blank n = false ∧ ∃ rest, n = "__xgo_recv_auto_filled".toList ++ rest := by
  rcases h with rfl | rfl
  · exact ⟨⟨"recv_auto_filled".toList, by decide⟩, by decide, [], by decide⟩
  · exact ⟨⟨"recv_auto_filled_blank".toList, by decide⟩, by decide, _, rfl⟩

theorem fillRecv_spec (f : Option Str) :
    (∃ m, f = some m ∧ m ≠ "_".toList ∧ fillName "__xgo_recv_auto_filled".toList f = some m) ∨
    (cdecl [f] = [] ∧ ∃ n, fillName "__xgo_recv_auto_filled".toList f = some n ∧ IsRecvName n) := by
  cases f with
  | none => exact Or.inr ⟨rfl, _, rfl, Or.inl rfl⟩
  | some m =>
    by_cases h : m = "_".toList
    · exact Or.inr ⟨by simp [cdecl, blank, h], _, if_pos h, Or.inr rfl⟩
    · exact Or.inl ⟨m, rfl, h, if_neg h⟩

/-- Three lists of names chosen one after the other, each avoiding all names known before, and two more names. -/
theorem fill_three (pa pb pc : Str) (fa fb fc : List (Option Str)) (preset : List Str) (extra : Str)
    (hsub : ∀ n ∈ cdecl fa ++ cdecl fb ++ cdecl fc, n ∈ preset) (hnd : (cdecl fa ++ cdecl fb ++ cdecl fc).Nodup) :
    let a := fillFieldNames pa fa 0 preset
    let b := fillFieldNames pb fb 0 a.2
    let c := fillFieldNames pc fc 0 b.2
    let post := nextName "_post".toList [] (extra :: c.2)
    let stop := nextName "_stop".toList [] (post :: extra :: c.2)
    (a.1 ++ b.1 ++ c.1 ++ [post, stop]).Nodup ∧
    ∀ n ∈ a.1 ++ b.1 ++ c.1 ++ [post, stop], n ∈ cdecl fa ++ cdecl fb ++ cdecl fc ∨
      (n ∉ preset ∧ ∃ p ∈ [pa, pb, pc, "_post".toList, "_stop".toList], ∃ rest, n = p ++ rest) := by
  simp only
  simp only [List.mem_append, or_imp, forall_and] at hsub
  obtain ⟨⟨sa, sb⟩, sc⟩ := hsub
  rw [List.nodup_append, List.nodup_append] at hnd
  obtain ⟨⟨na, nb, nab⟩, nc, nabc⟩ := hnd
  obtain ⟨_, a2, a3, a4, a5⟩ := fillFieldNames_spec pa fa 0 preset sa
  generalize fillFieldNames pa fa 0 preset = a at *
  obtain ⟨_, b2, b3, b4, b5⟩ := fillFieldNames_spec pb fb 0 a.2 fun n hn => a2 n (sb n hn)
  generalize fillFieldNames pb fb 0 a.2 = b at *
  obtain ⟨_, c2, c3, c4, c5⟩ := fillFieldNames_spec pc fc 0 b.2 fun n hn => b2 n (a2 n (sc n hn))
  generalize fillFieldNames pc fc 0 b.2 = c at *
  have hpost := nextName_fresh "_post".toList [] (extra :: c.2)
  obtain ⟨j, hj⟩ := (nextNameLoop_fresh "_post".toList [] (extra :: c.2) (extra :: c.2).length 0
    (List.length_filter_le _ _)).2
  have ppost : ∃ rest, nextName "_post".toList [] (extra :: c.2) = "_post".toList ++ rest :=
    ⟨List.replicate j '_' ++ [], by rw [← List.append_assoc]; exact hj⟩
  generalize nextName "_post".toList [] (extra :: c.2) = post at *
  have hstop := nextName_fresh "_stop".toList [] (post :: extra :: c.2)
  obtain ⟨k, hk⟩ := (nextNameLoop_fresh "_stop".toList [] (post :: extra :: c.2) (post :: extra :: c.2).length 0
    (List.length_filter_le _ _)).2
  have pstop : ∃ rest, nextName "_stop".toList [] (post :: extra :: c.2) = "_stop".toList ++ rest :=
    ⟨List.replicate k '_' ++ [], by rw [← List.append_assoc]; exact hk⟩
  generalize nextName "_stop".toList [] (post :: extra :: c.2) = stop at *
  simp only [List.mem_cons, not_or] at hpost hstop
  have hall : ∀ n ∈ a.1 ++ b.1 ++ c.1, n ∈ c.2 := by
    intro n hn
    rcases List.mem_append.1 hn with hn | hn
    · rcases List.mem_append.1 hn with hn | hn
      · exact c2 n (b2 n (a3 n hn))
      · exact c2 n (b3 n hn)
    · exact c3 n hn
  constructor
  · rw [List.nodup_append, List.nodup_append, List.nodup_append]
    refine ⟨⟨⟨a5 na, b5 nb, ?_⟩, c5 nc, ?_⟩, ?_, ?_⟩
    · rintro x hx y hy rfl
      rcases b4 x hy with h | ⟨h, _⟩
      · rcases a4 x hx with h' | ⟨h', _⟩
        · exact nab x h' x h rfl
        · exact h' (sb x h)
      · exact h (a3 x hx)
    · rintro x hx y hy rfl
      rcases c4 x hy with h | ⟨h, _⟩
      · rcases List.mem_append.1 hx with hx | hx
        · rcases a4 x hx with h' | ⟨h', _⟩
          · exact nabc x (List.mem_append_left _ h') x h rfl
          · exact h' (sc x h)
        · rcases b4 x hx with h' | ⟨h', _⟩
          · exact nabc x (List.mem_append_right _ h') x h rfl
          · exact h' (a2 x (sc x h))
      · rcases List.mem_append.1 hx with hx | hx
        · exact h (b2 x (a3 x hx))
        · exact h (b3 x hx)
    · refine List.nodup_cons.2 ⟨?_, List.nodup_singleton _⟩
      intro h
      exact hstop.1 (List.mem_singleton.1 h).symm
    · rintro x hx y hy rfl
      have := hall x hx
      rcases List.mem_cons.1 hy with rfl | hy
      · exact hpost.2 this
      · rw [List.mem_singleton] at hy
        subst hy
        exact hstop.2.2 this
  · intro n hn
    have up : ∀ m, m ∉ c.2 → m ∉ preset := fun m hm h => hm (c2 m (b2 m (a2 m h)))
    rcases List.mem_append.1 hn with hn | hn
    · rcases List.mem_append.1 hn with hn | hn
      · rcases List.mem_append.1 hn with hn | hn
        · rcases a4 n hn with h | ⟨h, hr⟩
          · exact Or.inl (List.mem_append_left _ (List.mem_append_left _ h))
          · exact Or.inr ⟨h, pa, by simp, hr⟩
        · rcases b4 n hn with h | ⟨h, hr⟩
          · exact Or.inl (List.mem_append_left _ (List.mem_append_right _ h))
          · exact Or.inr ⟨fun hp => h (a2 n hp), pb, by simp, hr⟩
      · rcases c4 n hn with h | ⟨h, hr⟩
        · exact Or.inl (List.mem_append_right _ h)
        · exact Or.inr ⟨fun hp => h (b2 n (a2 n hp)), pc, by simp, hr⟩
    · rcases List.mem_cons.1 hn with rfl | hn
      · exact Or.inr ⟨up _ hpost.2, _, List.mem_cons_of_mem _ (List.mem_cons_of_mem _ (List.mem_cons_of_mem _
          List.mem_cons_self)), ppost⟩
      · rw [List.mem_singleton] at hn
        subst hn
        exact Or.inr ⟨up _ hstop.2.2, _, List.mem_cons_of_mem _ (List.mem_cons_of_mem _ (List.mem_cons_of_mem _
          (List.mem_cons_of_mem _ List.mem_cons_self))), pstop⟩

theorem compilerNames_eq (s : CSig) (names : List Str) :
    compilerNames s names =
      (let s' := fillMissing s
       let preset := (s'.recv.bind id).toList ++ s'.params.filterMap id ++ names
       let a := fillFieldNames "_x".toList s'.recv.toList 0 preset
       let b := fillFieldNames "_a".toList s'.params 0 a.2
       let c := fillFieldNames "_r".toList s'.results 0 b.2
       let post := nextName "_post".toList [] ("__xgo_trap_0".toList :: c.2)
       let stop := nextName "_stop".toList [] (post :: "__xgo_trap_0".toList :: c.2)
       (a.1.head?, b.1, c.1, post, stop)) := by
  unfold compilerNames
  simp only
  cases (fillMissing s).recv <;> rfl

/-- **C40.** Functions that get their trap from the compiler: the names of receiver, parameters and results and the two
    variables of the trap are all different; declared names are kept; made up names occur nowhere in the function and
    are not those of the trap itself. (Names beginning with `__xgo_` are reserved.) -/
theorem C40_compiler (s : CSig) (names : List Str) (hocc : ∀ n ∈ Spec.cdeclared s, n ∈ names)
    (hnd : (Spec.cdeclared s).Nodup) (hres : ∀ n ∈ names, ¬ Spec.Reserved n) :
    ∃ recv params results post stop, compilerNames s names = (recv, params, results, post, stop) ∧
      (recv.toList ++ params ++ results ++ [post, stop]).Nodup ∧
      List.Forall₂ (fun n f => ∀ m, f = some m → m ≠ [] → m ≠ "_".toList → n = m) (recv.toList ++ params ++ results)
        (s.recv.toList ++ s.params ++ s.results) ∧
      ∀ n ∈ recv.toList ++ params ++ results ++ [post, stop],
        (n ∈ Spec.cdeclared s ∨ n ∉ names) ∧
        ¬ (∃ rest, n = "__xgo_trap_".toList ++ rest) ∧ ¬ ∃ rest, n = "__xgo_func_info_".toList ++ rest := by
  rw [cdeclared_eq] at hocc hnd
  rw [compilerNames_eq]
  simp only
  -- the names after the first step
  have hrs : (∀ n ∈ cdecl (fillMissing s).recv.toList, n ∈ cdecl s.recv.toList ∨ IsRecvName n) ∧
      (cdecl (fillMissing s).recv.toList).Nodup ∧
      List.Forall₂ (fun g f => ∀ m, f = some m → blank m = false → g = some m) (fillMissing s).recv.toList
        s.recv.toList := by
    have hr : (fillMissing s).recv = s.recv.map (fillName "__xgo_recv_auto_filled".toList) := rfl
    rw [hr]
    cases s.recv with
    | none => exact ⟨by simp [cdecl], by simp [cdecl], List.Forall₂.nil⟩
    | some f =>
      simp only [Option.map_some, Option.toList_some]
      have hone : (cdecl [fillName "__xgo_recv_auto_filled".toList f]).Nodup := by
        generalize fillName "__xgo_recv_auto_filled".toList f = g
        have hl : (cdecl [g]).length ≤ 1 := List.length_filterMap_le _ _
        match h : cdecl [g], hl with
        | [], _ => exact List.nodup_nil
        | [x], _ => exact List.nodup_singleton x
      refine ⟨?_, hone, ?_⟩
      · intro n hn
        rcases fillRecv_spec f with ⟨m, rfl, _, h⟩ | ⟨_, m, h, hm⟩
        · rw [h] at hn; exact Or.inl hn
        · rw [h, mem_cdecl] at hn
          have := List.mem_singleton.1 hn.1
          cases this
          exact Or.inr hm
      · refine List.Forall₂.cons ?_ List.Forall₂.nil
        intro m hm hb
        rcases fillRecv_spec f with ⟨m', h0, _, h⟩ | ⟨h0, _⟩
        · rw [h0] at hm; cases hm; exact h
        · have : m ∈ cdecl [f] := mem_cdecl.2 ⟨by rw [hm]; exact List.mem_cons_self, hb⟩
          rw [h0] at this
          exact absurd this (by simp)
  rw [List.nodup_append, List.nodup_append] at hnd
  obtain ⟨⟨nr, np, nrp⟩, nq, nrpq⟩ := hnd
  have uocc : ∀ n ∈ cdecl s.recv.toList ++ cdecl s.params ++ cdecl s.results, ¬ Spec.Reserved n :=
    fun n hn => hres n (hocc n hn)
  have hps := fillParams_spec s.params 0
    (fun n hn => uocc n (List.mem_append_left _ (List.mem_append_right _ hn))) np
  have hpe : (fillMissing s).params =
      (s.params.zipIdx 0).map fun x => fillName ("__xgo_arg_auto_filled_".toList ++ dec x.2) x.1 := rfl
  rw [← hpe] at hps
  obtain ⟨np', hps⟩ := hps
  have hpk : List.Forall₂ (fun g f => ∀ m, f = some m → blank m = false → g = some m) (fillMissing s).params
      s.params := by
    rw [hpe]
    generalize s.params = l
    generalize 0 = i
    induction l generalizing i with
    | nil => exact List.Forall₂.nil
    | cons f l ih =>
      rw [List.zipIdx_cons, List.map_cons]
      refine List.Forall₂.cons ?_ (ih _)
      rintro m rfl hb
      refine if_neg ?_
      rintro rfl
      exact absurd hb (by decide)
  have hqe : (fillMissing s).results = s.results := rfl
  have hnd' : (cdecl (fillMissing s).recv.toList ++ cdecl (fillMissing s).params ++
      cdecl (fillMissing s).results).Nodup := by
    rw [List.nodup_append, List.nodup_append, hqe]
    refine ⟨⟨hrs.2.1, np', ?_⟩, nq, ?_⟩
    · rintro x hx y hy rfl
      rcases hrs.1 x hx with h | h
      · rcases hps x hy with h' | ⟨k, _, h'⟩
        · exact nrp x h x h' rfl
        · exact uocc x (List.mem_append_left _ (List.mem_append_left _ h)) (isArgName_reserved h').1
      · rcases hps x hy with h' | ⟨k, _, h'⟩
        · exact uocc x (List.mem_append_left _ (List.mem_append_right _ h')) (isRecvName_reserved h).1
        · obtain ⟨r1, e1⟩ := (isRecvName_reserved h).2.2
          obtain ⟨r2, e2⟩ := (isArgName_reserved h').2.2
          exact prefixes_differ (by decide) (by decide) (e1.symm.trans e2)
    · rintro x hx y hy rfl
      have hu := uocc x (List.mem_append_right _ hy)
      rcases List.mem_append.1 hx with hx | hx
      · rcases hrs.1 x hx with h | h
        · exact nrpq x (List.mem_append_left _ h) x hy rfl
        · exact hu (isRecvName_reserved h).1
      · rcases hps x hx with h | ⟨k, _, h⟩
        · exact nrpq x (List.mem_append_right _ h) x hy rfl
        · exact hu (isArgName_reserved h).1
  have hsub : ∀ n ∈ cdecl (fillMissing s).recv.toList ++ cdecl (fillMissing s).params ++
      cdecl (fillMissing s).results,
      n ∈ ((fillMissing s).recv.bind id).toList ++ (fillMissing s).params.filterMap id ++ names := by
    intro n hn
    rcases List.mem_append.1 hn with hn | hn
    · rcases List.mem_append.1 hn with hn | hn
      · refine List.mem_append_left _ (List.mem_append_left _ ?_)
        have := (mem_cdecl.1 hn).1
        cases h : (fillMissing s).recv with
        | none => rw [h] at this; simp at this
        | some f =>
          rw [h] at this
          have := List.mem_singleton.1 this
          subst this
          simp
      · exact List.mem_append_left _ (List.mem_append_right _ (cdecl_mem_filterMap hn))
    · rw [hqe] at hn
      exact List.mem_append_right _ (hocc n (List.mem_append_right _ hn))
  obtain ⟨k1, k2⟩ := fill_three "_x".toList "_a".toList "_r".toList (fillMissing s).recv.toList
    (fillMissing s).params (fillMissing s).results _ "__xgo_trap_0".toList hsub hnd'
  have sa := fun n hn => hsub n (List.mem_append_left _ (List.mem_append_left _ hn))
  have sb := fun n hn => hsub n (List.mem_append_left _ (List.mem_append_right _ hn))
  have sc := fun n hn => hsub n (List.mem_append_right _ hn)
  generalize hP : ((fillMissing s).recv.bind id).toList ++ (fillMissing s).params.filterMap id ++ names = preset at *
  have ga := fillFieldNames_spec "_x".toList (fillMissing s).recv.toList 0 preset sa
  generalize fillFieldNames "_x".toList (fillMissing s).recv.toList 0 preset = a at *
  have gb := fillFieldNames_spec "_a".toList (fillMissing s).params 0 a.2 fun n hn => ga.2.1 n (sb n hn)
  generalize fillFieldNames "_a".toList (fillMissing s).params 0 a.2 = b at *
  have gc := fillFieldNames_spec "_r".toList (fillMissing s).results 0 b.2
    fun n hn => gb.2.1 n (ga.2.1 n (sc n hn))
  generalize fillFieldNames "_r".toList (fillMissing s).results 0 b.2 = c at *
  have ha : a.1.head?.toList = a.1 := by
    have hl := ga.1.length_eq
    have : a.1.length ≤ 1 := by rw [hl]; cases (fillMissing s).recv <;> simp
    match h : a.1, this with
    | [], _ => rfl
    | [x], _ => rfl
  refine ⟨_, _, _, _, _, rfl, ?_, ?_, ?_⟩
  · rw [ha]; exact k1
  · rw [ha]
    have comp : ∀ {xs : List Str} {gs fs : List (Option Str)} {ps : List Str} {pre : Str},
        List.Forall₂ (fun n f => (∃ m, f = some m ∧ blank m = false ∧ n = m) ∨
          ((f = none ∨ ∃ m, f = some m ∧ blank m = true) ∧ n ∉ ps ∧ ∃ rest, n = pre ++ rest)) xs gs →
        List.Forall₂ (fun g f => ∀ m, f = some m → blank m = false → g = some m) gs fs →
        List.Forall₂ (fun n f => ∀ m, f = some m → m ≠ [] → m ≠ "_".toList → n = m) xs fs := by
      intro xs gs fs ps pre h1
      induction h1 generalizing fs with
      | nil => intro h; cases h; exact List.Forall₂.nil
      | cons h _ ih =>
        intro h2
        cases h2 with
        | cons h3 h4 =>
          refine List.Forall₂.cons ?_ (ih h4)
          rintro m rfl hm1 hm2
          have hb : blank m = false := by
            rw [Bool.eq_false_iff, ne_eq, blank_iff]
            rintro (h | h)
            · exact hm1 h
            · exact hm2 h
          have h5 := h3 m rfl hb
          subst h5
          rcases h with ⟨m', h6, _, h7⟩ | ⟨h6 | ⟨m', h6, h7⟩, _⟩
          · cases h6; exact h7
          · cases h6
          · cases h6; rw [hb] at h7; exact absurd h7 (by simp)
    refine List.rel_append (List.rel_append (comp ga.1 hrs.2.2) (comp gb.1 hpk)) (comp gc.1 ?_)
    rw [hqe]
    exact List.forall₂_same.2 fun f _ m h _ => h
  · rw [ha]
    intro n hn
    have nres : ∀ q rest : Str, "__xgo_".toList <+: q → n = q ++ rest → Spec.Reserved n := by
      rintro q rest ⟨t, rfl⟩ rfl
      exact ⟨t ++ rest, List.append_assoc ..⟩
    have pt : "__xgo_".toList <+: "__xgo_trap_".toList := ⟨"trap_".toList, by decide⟩
    have pf : "__xgo_".toList <+: "__xgo_func_info_".toList := ⟨"func_info_".toList, by decide⟩
    rcases k2 n hn with h | ⟨hnp, p, hp, rest, hrest⟩
    · -- declared, or filled in by the first step
      have hcase : n ∈ Spec.cdeclared s ∨ IsRecvName n ∨ ∃ k, IsArgName k n := by
        rw [cdeclared_eq]
        rcases List.mem_append.1 h with h | h
        · rcases List.mem_append.1 h with h | h
          · rcases hrs.1 n h with h | h
            · exact Or.inl (List.mem_append_left _ (List.mem_append_left _ h))
            · exact Or.inr (Or.inl h)
          · rcases hps n h with h | ⟨k, _, h⟩
            · exact Or.inl (List.mem_append_left _ (List.mem_append_right _ h))
            · exact Or.inr (Or.inr ⟨k, h⟩)
        · exact Or.inl (List.mem_append_right _ h)
      rcases hcase with h | h | ⟨k, h⟩
      · have hnr : ¬ Spec.Reserved n := by rw [cdeclared_eq] at h; exact uocc n h
        exact ⟨Or.inl h, fun ⟨r, hr⟩ => hnr (nres _ r pt hr), fun ⟨r, hr⟩ => hnr (nres _ r pf hr)⟩
      · obtain ⟨h1, _, r1, h2⟩ := isRecvName_reserved h
        refine ⟨Or.inr fun hm => hres n hm h1, ?_, ?_⟩
        · rintro ⟨r, hr⟩
          exact prefixes_differ (by decide) (by decide) (hr.symm.trans h2)
        · rintro ⟨r, hr⟩
          exact prefixes_differ (by decide) (by decide) (hr.symm.trans h2)
      · obtain ⟨h1, _, r1, h2⟩ := isArgName_reserved h
        refine ⟨Or.inr fun hm => hres n hm h1, ?_, ?_⟩
        · rintro ⟨r, hr⟩
          exact prefixes_differ (by decide) (by decide) (hr.symm.trans h2)
        · rintro ⟨r, hr⟩
          exact prefixes_differ (by decide) (by decide) (hr.symm.trans h2)
    · have hnr : ∀ q : Str, "__xgo_".toList <+: q → ¬ ∃ r, n = q ++ r := by
        rintro q hq ⟨r, hr⟩
        obtain ⟨t, ht⟩ := nres q r hq hr
        rw [ht] at hrest
        simp only [List.mem_cons, List.not_mem_nil, or_false] at hp
        rcases hp with rfl | rfl | rfl | rfl | rfl <;> revert hrest <;> simp
      refine ⟨Or.inr fun hm => hnp ?_, hnr _ pt, hnr _ pf⟩
      rw [← hP]
      exact List.mem_append_right _ hm

example : compilerNames { recv := some none, params := [some "_a0".toList, some "_".toList], results := [none, none] }
      ["_a0".toList, "_r1".toList, "_".toList, "_post".toList, "_r0".toList, "_r_0".toList] =
    (some "__xgo_recv_auto_filled".toList, ["_a0".toList, "__xgo_arg_auto_filled_1_blank".toList],
      ["_r__0".toList, "_r_1".toList], "_post_".toList, "_stop".toList) := by decide +kernel

end Verif.Instrument.FuncTrap
