/-
C94: unpacking.
-/
import Verif.Support.GetGoSpec
import Verif.Cmd.GoModProps

namespace Verif.Support.GetGo
open Spec
open Verif.Cmd.GoMod (Path isAbs clean cleanStep abs fold_ordinary fold_true fold_false step_ordinary abs_clean isAbs_cons)
open Verif.Cmd.GoMod.Spec (Ordinary)

/-! ### Paths -/

/-- `..` only at the front. -/
def Canon (st : List Str) : Prop := ∃ ups os, st = ups ++ os ∧ (∀ x ∈ ups, x = "..".toList) ∧ ∀ x ∈ os, Ordinary x

theorem canon_step {st : List Str} (h : Canon st) (y : Str) : Canon (cleanStep false st y) := by
  obtain ⟨ups, os, rfl, hu, ho⟩ := h
  unfold cleanStep
  split
  · exact ⟨ups, os, rfl, hu, ho⟩
  · rename_i h1
    split
    · rename_i h2
      rcases List.eq_nil_or_concat os with rfl | ⟨os', z, rfl⟩
      · rw [if_pos]
        · refine ⟨ups ++ [y], [], by simp, ?_, by simp⟩
          intro x hx
          rcases List.mem_append.1 hx with hx | hx
          · exact hu x hx
          · rw [List.mem_singleton.1 hx, h2]
        · rw [List.append_nil]
          cases hl : ups.getLast? with
          | none => exact .inl rfl
          | some x => rw [hu x (List.mem_of_getLast? hl)]; exact .inr rfl
      · have hz : Ordinary z := ho z (by simp)
        have hl : (ups ++ os'.concat z).getLast? = some z := by simp
        rw [hl, if_neg]
        · refine ⟨ups, os', ?_, hu, fun x hx => ho x (by simp [hx])⟩
          rw [List.concat_eq_append, ← List.append_assoc, List.dropLast_concat]
        · rintro (h | h)
          · cases h
          · exact hz.2.2 (Option.some.inj h)
    · rename_i h2
      refine ⟨ups, os ++ [y], by simp, hu, ?_⟩
      intro x hx
      rcases List.mem_append.1 hx with hx | hx
      · exact ho x hx
      · rw [List.mem_singleton.1 hx]
        exact ⟨fun e => h1 (.inl e), fun e => h1 (.inr e), h2⟩

theorem canon_fold : ∀ (p : Path) (st : List Str), Canon st → Canon (p.foldl (cleanStep false) st) := by
  intro p
  induction p with
  | nil => intro st h; exact h
  | cons y p ih => intro st h; exact ih _ (canon_step h y)

theorem canon_nil : Canon [] := ⟨[], [], rfl, by simp, by simp⟩

theorem canon_true {st : List Str} (h : ∀ x ∈ st, Ordinary x) : Canon st := ⟨[], st, rfl, by simp, h⟩

theorem canon_elems (p : Path) : Canon (elems p) := by
  unfold elems
  cases isAbs p with
  | true => exact canon_true (fold_true p [] (by simp))
  | false => exact canon_fold p [] canon_nil

/-- Cleaning a clean path changes nothing. -/
theorem canon_self {l : List Str} (h : Canon l) : l.foldl (cleanStep false) [] = l := by
  obtain ⟨ups, os, rfl, hu, ho⟩ := h
  have : ∀ (us : List Str) (st : List Str), (∀ x ∈ us, x = "..".toList) → (∀ x ∈ st, x = "..".toList) → us.foldl (cleanStep false) st = st ++ us := by
    intro us
    induction us with
    | nil => intro st _ _; simp
    | cons u us ih =>
      intro st h1 h2
      have hu : u = "..".toList := h1 u (by simp)
      have : cleanStep false st u = st ++ [u] := by
        unfold cleanStep
        rw [hu, if_neg (by decide), if_pos rfl, if_pos]
        · rfl
        · cases hl : st.getLast? with
          | none => exact .inl rfl
          | some x => rw [h2 x (List.mem_of_getLast? hl)]; exact .inr rfl
      rw [List.foldl_cons, this, ih _ (fun x hx => h1 x (by simp [hx]))]
      · simp
      · intro x hx
        rcases List.mem_append.1 hx with hx | hx
        · exact h2 x hx
        · rw [List.mem_singleton.1 hx]; exact hu
  rw [List.foldl_append, this ups [] hu (by simp), fold_ordinary os ho]
  simp

theorem canon_not_abs {l : List Str} (h : Canon l) : isAbs l = false := by
  obtain ⟨ups, os, rfl, hu, ho⟩ := h
  have : ∀ x ∈ ups ++ os, x ≠ [] := by
    intro x hx
    rcases List.mem_append.1 hx with hx | hx
    · rw [hu x hx]; decide
    · exact (ho x hx).1
  match hl : ups ++ os with
  | [] => rfl
  | [_] => rfl
  | a :: b :: l =>
    rw [hl] at this
    exact beq_eq_false_iff_ne.2 (this a (by simp))

theorem clean_abs (p : Path) : isAbs (clean p) = isAbs p := by
  unfold clean
  cases h : isAbs p with
  | true =>
    simp only [if_true]
    split
    · rfl
    · rename_i hl; rw [isAbs_cons hl]; rfl
  | false =>
    simp only [Bool.false_eq_true, if_false]
    split
    · rfl
    · exact canon_not_abs (canon_fold p [] canon_nil)

theorem elems_clean (p : Path) : elems (clean p) = elems p := by
  have h1 := clean_abs p
  unfold elems
  rw [h1]
  cases h : isAbs p with
  | true =>
    have ho : ∀ x ∈ p.foldl (cleanStep true) [], Ordinary x := fold_true p [] (by simp)
    unfold clean
    rw [h]
    simp only [if_true]
    split
    · rename_i hl; rw [hl]; rfl
    · rw [List.foldl_cons]
      have : cleanStep true [] [] = [] := rfl
      rw [this, fold_ordinary _ ho]; rfl
  | false =>
    unfold clean
    rw [h]
    simp only [Bool.false_eq_true, if_false]
    split
    · rename_i hl; rw [hl]; rfl
    · exact canon_self (canon_fold p [] canon_nil)

/-- Where a path leads, by its parts. -/
theorem abs_elems {cwd : List Str} (hc : ∀ x ∈ cwd, Ordinary x) (p : Path) :
    abs cwd p = (elems p).foldl (cleanStep true) (if isAbs p then [] else cwd) := by
  unfold abs elems
  cases h : isAbs p with
  | true =>
    simp only [if_true]
    rw [fold_ordinary _ (fold_true p [] (by simp))]; rfl
  | false =>
    simp only [Bool.false_eq_true, if_false]
    rw [List.foldl_append, fold_ordinary cwd hc, (fold_false p cwd [] hc (by simp)).2]
    rfl

theorem canon_tail {b r : List Str} (h : Canon (b ++ r)) (hr : r.head? ≠ some "..".toList) : ∀ x ∈ r, Ordinary x := by
  obtain ⟨ups, os, e, hu, ho⟩ := h
  rcases List.append_eq_append_iff.1 e with ⟨a, h1, h2⟩ | ⟨a, h1, h2⟩
  · cases a with
    | nil => rw [h2]; exact ho
    | cons x a =>
      have : x = "..".toList := hu x (by rw [h1]; simp)
      rw [h2, this] at hr
      exact absurd rfl hr
  · intro x hx
    exact ho x (by rw [h2]; simp [hx])

/-- What is accepted is in the directory. -/
theorem accepted_in {cwd : List Str} (hc : ∀ x ∈ cwd, Ordinary x) {t full : Path} (h : accepts t full = true) :
    ∃ r, abs cwd full = abs cwd t ++ r ∧ ∀ x ∈ r, Ordinary x := by
  unfold accepts at h
  rw [Bool.and_eq_true, Bool.and_eq_true] at h
  obtain ⟨⟨h1, h2⟩, h3⟩ := h
  have h1 : isAbs t = isAbs full := by simpa using h1
  obtain ⟨r, hr⟩ := List.isPrefixOf_iff_prefix.1 h2
  rw [← hr, List.drop_left, bne_iff_ne] at h3
  have ho := canon_tail (by rw [hr]; exact canon_elems full) h3
  refine ⟨r, ?_, ho⟩
  rw [abs_elems hc full, abs_elems hc t, ← hr, List.foldl_append, ← h1, fold_ordinary r ho]

theorem isAbs_append {t n : Path} (ht : t ≠ []) (ht1 : t ≠ [[]]) : isAbs (t ++ n) = isAbs t := by
  match t with
  | [] => exact absurd rfl ht
  | [a] =>
    cases n with
    | nil => rfl
    | cons b n =>
      show (a == []) = false
      exact beq_eq_false_iff_ne.2 fun e => ht1 (by rw [e])
  | a :: b :: t => rfl

theorem stays_fold {base : List Str} (hb : Canon base) : ∀ (n : Path) (k : Nat) (st : List Str) (a : Bool), Stays k n → st.length = k → (∀ x ∈ st, Ordinary x) →
    ∃ r, n.foldl (cleanStep a) (base ++ st) = base ++ r ∧ (∀ x ∈ r, Ordinary x) ∧ n.foldl (cleanStep true) st = r := by
  intro n
  induction n with
  | nil => intro k st a _ _ ho; exact ⟨st, rfl, ho, rfl⟩
  | cons x n ih =>
    intro k st a hs hk ho
    rw [Stays] at hs
    by_cases h1 : x = [] ∨ x = ".".toList
    · rw [if_pos h1] at hs
      have e : ∀ b s, cleanStep b s x = s := fun b s => by unfold cleanStep; rw [if_pos h1]
      rw [List.foldl_cons, List.foldl_cons, e, e]
      exact ih k st a hs hk ho
    · rw [if_neg h1] at hs
      by_cases h2 : x = "..".toList
      · rw [if_pos h2] at hs
        obtain ⟨hp, hs⟩ := hs
        rcases List.eq_nil_or_concat st with rfl | ⟨st', z, rfl⟩
        · simp at hk; omega
        · have hz : Ordinary z := ho z (by simp)
          have e : ∀ b s, cleanStep b (s ++ [z]) x = s := by
            intro b s
            unfold cleanStep
            rw [if_neg h1, if_pos h2, if_neg, List.dropLast_concat]
            rw [List.getLast?_concat]
            rintro (h | h)
            · cases h
            · exact hz.2.2 (Option.some.inj h)
          rw [List.concat_eq_append] at hk ho ⊢
          rw [List.foldl_cons, List.foldl_cons, ← List.append_assoc, e, e]
          exact ih (k - 1) st' a hs (by simp at hk; omega) (fun y hy => ho y (by simp [hy]))
      · rw [if_neg h2] at hs
        have hx : Ordinary x := ⟨fun e => h1 (.inl e), fun e => h1 (.inr e), h2⟩
        rw [List.foldl_cons, List.foldl_cons, step_ordinary hx, step_ordinary hx, List.append_assoc]
        refine ih (k + 1) (st ++ [x]) a hs (by simp [hk]) ?_
        intro y hy
        rcases List.mem_append.1 hy with hy | hy
        · exact ho y hy
        · rw [List.mem_singleton.1 hy]; exact hx

theorem stays_ordinary : ∀ (r : List Str), (∀ x ∈ r, Ordinary x) → ∀ k, Stays k r := by
  intro r
  induction r with
  | nil => intro _ k; trivial
  | cons x r ih =>
    intro h k
    have hx := h x (by simp)
    rw [Stays, if_neg (by rintro (e | e); exact hx.1 e; exact hx.2.1 e), if_neg hx.2.2]
    exact ih (fun y hy => h y (by simp [hy])) _

theorem elems_join {t n : Path} (ht : t ≠ []) (ht1 : t ≠ [[]]) : elems (join t n) = n.foldl (cleanStep (isAbs t)) (elems t) := by
  unfold join
  rw [elems_clean, elems, isAbs_append ht ht1, List.foldl_append]
  rfl

theorem join_abs {t n : Path} (ht : t ≠ []) (ht1 : t ≠ [[]]) : isAbs (join t n) = isAbs t := by
  unfold join
  rw [clean_abs, isAbs_append ht ht1]

/-- The parts of a clean path, put behind a directory. -/
theorem clean_stays {n : Path} (h : isAbs n = true ∨ Stays 0 n) :
    ∃ r, (∀ x ∈ r, Ordinary x) ∧ n.foldl (cleanStep true) [] = r ∧ ∀ (b : List Str) (a : Bool), (clean n).foldl (cleanStep a) b = b ++ r := by
  refine ⟨n.foldl (cleanStep true) [], fold_true n [] (by simp), rfl, ?_⟩
  intro b a
  have ho : ∀ x ∈ n.foldl (cleanStep true) [], Ordinary x := fold_true n [] (by simp)
  have e0 : cleanStep a b [] = b := rfl
  unfold clean
  cases hn : isAbs n with
  | true =>
    simp only [if_true]
    split
    · rename_i hl; rw [hl]; simp [List.foldl_cons, e0]
    · rw [List.foldl_cons, e0, fold_ordinary _ ho]
  | false =>
    rcases h with h | h
    · rw [hn] at h; cases h
    · obtain ⟨r, h1, h2, h3⟩ := stays_fold canon_nil n 0 [] false h rfl (by simp)
      simp only [List.nil_append] at h1
      simp only [Bool.false_eq_true, if_false]
      rw [h1, h3]
      split
      · rename_i hl; rw [hl]; simp [List.foldl_cons]; rfl
      · exact fold_ordinary _ h2 b

/-- **C94** (`C94_names`): an entry whose name is absolute, or does not lead out of where it is, is unpacked in the directory, where the name says. -/
theorem C94_names (cwd : List Str) (hc : ∀ x ∈ cwd, Ordinary x) (t : Path) (ht : t ≠ []) (ht1 : t ≠ [[]]) (e : Entry)
    (h : isAbs e.name = true ∨ Stays 0 e.name) :
    accepts t (fullPath t e) = true ∧ abs cwd (fullPath t e) = abs cwd t ++ abs [] e.name := by
  obtain ⟨r, ho, hr, hf⟩ := clean_stays h
  have he : elems (fullPath t e) = elems t ++ r := by
    unfold fullPath
    rw [elems_join ht ht1, hf]
  constructor
  · unfold accepts
    rw [he, List.drop_left]
    have h1 : isAbs (fullPath t e) = isAbs t := join_abs ht ht1
    rw [h1, Bool.and_eq_true, Bool.and_eq_true]
    refine ⟨⟨by simp, List.isPrefixOf_iff_prefix.2 ⟨r, rfl⟩⟩, ?_⟩
    rw [bne_iff_ne]
    cases r with
    | nil => simp
    | cons x r => intro e; exact (ho x (by simp)).2.2 (Option.some.inj e)
  · have h1 : isAbs (fullPath t e) = isAbs t := join_abs ht ht1
    have h2 : abs [] e.name = r := by
      unfold abs
      rw [List.nil_append, ite_self, hr]
    rw [abs_elems hc, abs_elems hc t, he, h1, List.foldl_append, fold_ordinary r ho, h2]

example : isAbs ["".toList, "..".toList, "x".toList] = true ∧ Stays 0 ["go".toList, "bin".toList, "..".toList, "".toList, "VERSION".toList] ∧
    ¬ Stays 0 ["go".toList, "..".toList, "..".toList, "x".toList] := by decide

/-! ### Files -/

theorem mkdir_spec : ∀ (r : List Str) (fs : FS) (cur : List Str) (fs' : FS), mkdirAll fs cur r = some fs' →
    (∀ a, a ≠ [] → a <+: r → fs' (cur ++ a) = some .dir ∧ (fs (cur ++ a) = none ∨ fs (cur ++ a) = some .dir)) ∧
    ∀ q, (¬ ∃ a, a ≠ [] ∧ a <+: r ∧ q = cur ++ a) → fs' q = fs q := by
  intro r
  induction r with
  | nil =>
    intro fs cur fs' h
    cases h
    refine ⟨fun a h1 h2 => absurd (List.prefix_nil.1 h2) h1, fun q _ => rfl⟩
  | cons x r ih =>
    intro fs cur fs' h
    have split_ : ∀ a, a ≠ [] → a <+: x :: r → a = [x] ∨ ∃ a', a' ≠ [] ∧ a' <+: r ∧ a = x :: a' := by
      intro a h1 h2
      cases a with
      | nil => exact absurd rfl h1
      | cons y a =>
        obtain ⟨e, h3⟩ := List.cons_prefix_cons.1 h2
        subst e
        cases a with
        | nil => exact .inl rfl
        | cons z a => exact .inr ⟨_, by simp, h3, rfl⟩
    have hself : ∀ a' : List Str, a' ≠ [] → cur ++ [x] ++ a' ≠ cur ++ [x] := by
      intro a' h e
      have := congrArg List.length e
      simp at this
      exact h this
    have out : ∀ q, (¬ ∃ a, a ≠ [] ∧ a <+: x :: r ∧ q = cur ++ a) → (¬ ∃ a, a ≠ [] ∧ a <+: r ∧ q = cur ++ [x] ++ a) ∧ q ≠ cur ++ [x] := by
      intro q hq
      constructor
      · rintro ⟨a, h1, h2, rfl⟩
        exact hq ⟨x :: a, by simp, List.cons_prefix_cons.2 ⟨rfl, h2⟩, by simp⟩
      · rintro rfl
        exact hq ⟨[x], by simp, List.cons_prefix_cons.2 ⟨rfl, List.nil_prefix⟩, rfl⟩
    rw [mkdirAll] at h
    cases hx : fs (cur ++ [x]) with
    | none =>
      rw [hx] at h
      obtain ⟨i1, i2⟩ := ih _ _ _ h
      constructor
      · intro a h1 h2
        rcases split_ a h1 h2 with rfl | ⟨a', h3, h4, rfl⟩
        · refine ⟨?_, .inl hx⟩
          rw [i2]
          · simp [FS.put]
          · rintro ⟨a', h3, _, e⟩; exact hself a' h3 e.symm
        · have := i1 a' h3 h4
          rw [List.append_assoc] at this
          refine ⟨this.1, ?_⟩
          have h5 := this.2
          have hne : cur ++ ([x] ++ a') ≠ cur ++ [x] := by rw [← List.append_assoc]; exact hself a' h3
          simp only [FS.put, if_neg hne] at h5
          exact h5
      · intro q hq
        obtain ⟨o1, o2⟩ := out q hq
        rw [i2 q o1]
        simp [FS.put, o2]
    | some nd =>
      cases nd with
      | file c => rw [hx] at h; cases h
      | dir =>
        rw [hx] at h
        obtain ⟨i1, i2⟩ := ih _ _ _ h
        constructor
        · intro a h1 h2
          rcases split_ a h1 h2 with rfl | ⟨a', h3, h4, rfl⟩
          · refine ⟨?_, .inr hx⟩
            rw [i2, hx]
            rintro ⟨a', h3, _, e⟩; exact hself a' h3 e.symm
          · have := i1 a' h3 h4
            rw [List.append_assoc] at this
            exact this
        · intro q hq
          exact i2 q (out q hq).1

theorem mkdir_root {fs fs' : FS} {p : List Str} (h : mkdirAll fs [] p = some fs') :
    (∀ q, q ≠ [] → q <+: p → fs' q = some .dir ∧ (fs q = none ∨ fs q = some .dir)) ∧ ∀ q, (q = [] ∨ ¬ q <+: p) → fs' q = fs q := by
  obtain ⟨h1, h2⟩ := mkdir_spec p fs [] fs' h
  refine ⟨h1, fun q hq => h2 q ?_⟩
  rintro ⟨a, h3, h4, rfl⟩
  rcases hq with hq | hq
  · exact h3 hq
  · exact hq h4

/-- What one entry changes. -/
theorem unzipFile_spec {cwd : List Str} (hc : ∀ x ∈ cwd, Ordinary x) {t : Path} {fs : FS} (hd : Dirs (abs cwd t) fs) (e : Entry) :
    Dirs (abs cwd t) (unzipFile cwd t fs e).1 ∧ (∀ p, ¬ abs cwd t <+: p → (unzipFile cwd t fs e).1 p = fs p) ∧
    ((unzipFile cwd t fs e).2 = true →
      abs cwd t <+: abs cwd (fullPath t e) ∧
      (∀ p, p <+: abs cwd (fullPath t e) → (e.isDir = true ∨ p ≠ abs cwd (fullPath t e)) →
        (unzipFile cwd t fs e).1 p = some .dir ∧ (fs p = none ∨ fs p = some .dir)) ∧
      (e.isDir = false → (unzipFile cwd t fs e).1 (abs cwd (fullPath t e)) = some (.file e.content) ∧ fs (abs cwd (fullPath t e)) ≠ some .dir) ∧
      ∀ p, ¬ p <+: abs cwd (fullPath t e) → (unzipFile cwd t fs e).1 p = fs p) := by
  unfold unzipFile
  by_cases ha : accepts t (fullPath t e) = true
  · obtain ⟨r, hr, _⟩ := accepted_in hc ha
    rw [if_pos ha]
    simp only
    have hTP : abs cwd t <+: abs cwd (fullPath t e) := ⟨r, hr.symm⟩
    generalize abs cwd (fullPath t e) = P at hr hTP ⊢
    generalize abs cwd t = T at hr hTP hd ⊢
    -- directories made on the way do not matter outside
    have keep : ∀ (d : List Str) (fs' : FS), d <+: P → mkdirAll fs [] d = some fs' → Dirs T fs' ∧ ∀ p, ¬ T <+: p → fs' p = fs p := by
      intro d fs' hdP hm
      obtain ⟨m1, m2⟩ := mkdir_root hm
      have all : ∀ q, q <+: T → fs' q = some .dir := by
        intro q hq
        by_cases h0 : q = []
        · rw [m2 q (.inl h0)]; exact hd q hq
        · by_cases h1 : q <+: d
          · exact (m1 q h0 h1).1
          · rw [m2 q (.inr h1)]; exact hd q hq
      refine ⟨all, fun p hp => ?_⟩
      by_cases h1 : p <+: d
      · rcases List.prefix_or_prefix_of_prefix (h1.trans hdP) hTP with h | h
        · rw [all p h, hd p h]
        · exact absurd h hp
      · exact m2 p (.inr h1)
    by_cases hdir : e.isDir = true
    · rw [if_pos hdir]
      cases hm : mkdirAll fs [] P with
      | none => exact ⟨hd, fun p _ => rfl, fun h => by cases h⟩
      | some fs' =>
        obtain ⟨k1, k2⟩ := keep P fs' (List.prefix_refl _) hm
        obtain ⟨m1, m2⟩ := mkdir_root hm
        refine ⟨k1, k2, fun _ => ⟨hTP, ?_, ?_, fun p hp => m2 p (.inr hp)⟩⟩
        · intro p hp _
          by_cases h0 : p = []
          · subst h0
            exact ⟨k1 [] List.nil_prefix, .inr (hd [] List.nil_prefix)⟩
          · exact m1 p h0 hp
        · intro h; rw [hdir] at h; cases h
    · rw [if_neg hdir]
      have hdrop : P.dropLast <+: P := List.dropLast_prefix P
      cases hm : mkdirAll fs [] P.dropLast with
      | none => exact ⟨hd, fun p _ => rfl, fun h => by cases h⟩
      | some fs' =>
        obtain ⟨k1, k2⟩ := keep _ fs' hdrop hm
        obtain ⟨m1, m2⟩ := mkdir_root hm
        simp only
        by_cases hP : fs' P = some .dir
        · have : writeFile fs' P e.content = none := by unfold writeFile; rw [hP]
          rw [this]
          exact ⟨k1, k2, fun h => by cases h⟩
        · have : writeFile fs' P e.content = some (fs'.put P (.file e.content)) := by
            unfold writeFile
            split
            · rename_i h; exact absurd h hP
            · rfl
          rw [this]
          simp only
          have hPT : ∀ q, q <+: T → q ≠ P := fun q hq e => hP (by rw [← e]; exact k1 q hq)
          have hnp : ¬ P <+: P.dropLast := by
            intro h
            have hl := h.length_le
            rw [List.length_dropLast] at hl
            have : P = [] := List.length_eq_zero_iff.1 (by omega)
            subst this
            exact hPT [] List.nil_prefix rfl
          refine ⟨fun q hq => ?_, fun p hp => ?_, fun _ => ⟨hTP, ?_, ?_, ?_⟩⟩
          · simp only [FS.put, if_neg (hPT q hq)]; exact k1 q hq
          · have : p ≠ P := fun e => hp (by rw [e]; exact hTP)
            simp only [FS.put, if_neg this]; exact k2 p hp
          · intro p hp h
            have hne : p ≠ P := by
              rcases h with h | h
              · exact absurd h hdir
              · exact h
            simp only [FS.put, if_neg hne]
            have hp' : p <+: P.dropLast := by
              obtain ⟨s, hs⟩ := hp
              rcases List.eq_nil_or_concat s with rfl | ⟨s', z, rfl⟩
              · rw [List.append_nil] at hs; exact absurd hs hne
              · refine ⟨s', ?_⟩
                rw [← hs, List.concat_eq_append, ← List.append_assoc, List.dropLast_concat]
            by_cases h0 : p = []
            · subst h0
              exact ⟨k1 [] List.nil_prefix, .inr (hd [] List.nil_prefix)⟩
            · exact m1 p h0 hp'
          · intro _
            refine ⟨by simp [FS.put], ?_⟩
            rw [← m2 P (.inr hnp)]; exact hP
          · intro p hp
            have hne : p ≠ P := fun e => hp (by rw [e]; exact List.prefix_refl _)
            simp only [FS.put, if_neg hne]
            exact m2 p (.inr fun h => hp (h.trans hdrop))
  · rw [if_neg ha]
    exact ⟨hd, fun p _ => rfl, fun h => by cases h⟩

/-- **C94** (`C94_inside`): unpacking a zip archive changes nothing outside the directory, whatever the names of its entries are, and whether it
    succeeds or fails. -/
theorem C94_inside (cwd : List Str) (hc : ∀ x ∈ cwd, Ordinary x) (t : Path) (es : List Entry) : ∀ (fs : FS), Dirs (abs cwd t) fs →
    ∀ p, ¬ abs cwd t <+: p → (unzip cwd t fs es).1 p = fs p := by
  induction es with
  | nil => intro fs _ p _; rfl
  | cons e es ih =>
    intro fs hd p hp
    obtain ⟨h1, h2, _⟩ := unzipFile_spec hc hd e
    rw [unzip]
    cases hu : unzipFile cwd t fs e with
    | mk fs' ok =>
      rw [hu] at h1 h2
      cases ok with
      | true => exact (ih fs' h1 p hp).trans (h2 p hp)
      | false => exact h2 p hp

/-- A name that leads out, and one that leads out and back in. -/
example : (unzip [] [[], "d".toList] (fun p => if p = [] ∨ p = ["d".toList] then some .dir else none)
      [⟨["..".toList, "evil".toList], false, "x".toList⟩]).2 = false ∧
    (unzip [] [[], "d".toList] (fun p => if p = [] ∨ p = ["d".toList] then some .dir else none)
      [⟨["..".toList, "d".toList, "a".toList], false, "x".toList⟩]).1 ["d".toList, "a".toList] = some (.file "x".toList) := by decide +kernel

theorem lastFile_snoc {place : Entry → List Str} {es : List Entry} {e : Entry} {p : List Str} {c : Str} :
    LastFile place (es ++ [e]) p c ↔ (e.isDir = false ∧ place e = p ∧ e.content = c) ∨ (¬ (e.isDir = false ∧ place e = p) ∧ LastFile place es p c) := by
  constructor
  · rintro ⟨pre, x, post, h, h1, h2, h3, h4⟩
    rcases List.eq_nil_or_concat post with rfl | ⟨post', y, rfl⟩
    · have := List.append_inj' h rfl
      obtain ⟨_, hx⟩ := this
      have : e = x := (List.cons.inj hx).1
      subst this
      exact .inl ⟨h1, h2, h3⟩
    · have h' : es ++ [e] = (pre ++ x :: post') ++ [y] := by rw [h]; simp
      obtain ⟨g1, g2⟩ := List.append_inj' h' rfl
      have : e = y := (List.cons.inj g2).1
      subst this
      exact .inr ⟨fun ⟨a, b⟩ => h4 e (by simp) a b, pre, x, post', g1, h1, h2, h3, fun z hz => h4 z (by simp [hz])⟩
  · rintro (⟨h1, h2, h3⟩ | ⟨hn, pre, x, post, h, h1, h2, h3, h4⟩)
    · exact ⟨es, e, [], rfl, h1, h2, h3, by simp⟩
    · refine ⟨pre, x, post ++ [e], by rw [h]; simp, h1, h2, h3, ?_⟩
      intro z hz hzd
      rcases List.mem_append.1 hz with hz | hz
      · exact h4 z hz hzd
      · rw [List.mem_singleton.1 hz] at hzd ⊢
        exact fun e => hn ⟨hzd, e⟩

theorem hasDir_snoc {place : Entry → List Str} {es : List Entry} {e : Entry} {p : List Str} :
    HasDir place (es ++ [e]) p ↔ HasDir place es p ∨ (p <+: place e ∧ (e.isDir = true ∨ p ≠ place e)) := by
  constructor
  · rintro ⟨x, hx, h⟩
    rcases List.mem_append.1 hx with hx | hx
    · exact .inl ⟨x, hx, h⟩
    · rw [List.mem_singleton.1 hx] at h; exact .inr h
  · rintro (⟨x, hx, h⟩ | h)
    · exact ⟨x, by simp [hx], h⟩
    · exact ⟨e, by simp, h⟩

theorem unzip_all {cwd : List Str} (hc : ∀ x ∈ cwd, Ordinary x) {t : Path} : ∀ (es pre : List Entry) (fs : FS), Dirs (abs cwd t) fs →
    (∀ p, abs cwd t <+: p → p ≠ abs cwd t →
      (∀ c, fs p = some (.file c) ↔ LastFile (fun e => abs cwd (fullPath t e)) pre p c) ∧
      (fs p = some .dir ↔ HasDir (fun e => abs cwd (fullPath t e)) pre p)) →
    (unzip cwd t fs es).2 = true →
    ∀ p, abs cwd t <+: p → p ≠ abs cwd t →
      (∀ c, (unzip cwd t fs es).1 p = some (.file c) ↔ LastFile (fun e => abs cwd (fullPath t e)) (pre ++ es) p c) ∧
      ((unzip cwd t fs es).1 p = some .dir ↔ HasDir (fun e => abs cwd (fullPath t e)) (pre ++ es) p) := by
  intro es
  induction es with
  | nil => intro pre fs _ h _; rw [List.append_nil]; exact h
  | cons e es ih =>
    intro pre fs hd hinv hok p hp hne
    obtain ⟨h1, h2, h3⟩ := unzipFile_spec hc hd e
    rw [unzip] at hok ⊢
    cases hu : unzipFile cwd t fs e with
    | mk fs' ok =>
      rw [hu] at h1 h2 h3 hok
      cases ok with
      | false => cases hok
      | true =>
        obtain ⟨_, g1, g2, g3⟩ := h3 rfl
        dsimp only at g1 g2 g3
        have := ih (pre ++ [e]) fs' h1 ?_ hok p hp hne
        · rw [List.append_assoc] at this; exact this
        · intro q hq hqn
          obtain ⟨i1, i2⟩ := hinv q hq hqn
          constructor
          · intro c
            rw [lastFile_snoc]
            by_cases hqe : q <+: abs cwd (fullPath t e)
            · by_cases hf : e.isDir = true ∨ q ≠ abs cwd (fullPath t e)
              · obtain ⟨k1, k2⟩ := g1 q hqe hf
                constructor
                · intro h; rw [k1] at h; cases h
                · rintro (⟨a, b, _⟩ | ⟨_, h⟩)
                  · rcases hf with hf | hf
                    · rw [hf] at a; cases a
                    · exact absurd b.symm hf
                  · rw [← i1 c] at h
                    rcases k2 with k2 | k2 <;> rw [k2] at h <;> cases h
              · have hfd : e.isDir = false := by
                  cases hx : e.isDir with
                  | true => exact absurd (.inl hx) hf
                  | false => rfl
                have hqP : q = abs cwd (fullPath t e) := Classical.byContradiction fun h => hf (.inr h)
                obtain ⟨k1, _⟩ := g2 hfd
                rw [hqP, k1]
                constructor
                · intro h; cases h; exact .inl ⟨hfd, rfl, rfl⟩
                · rintro (⟨_, _, rfl⟩ | ⟨h, _⟩)
                  · rfl
                  · exact absurd ⟨hfd, rfl⟩ h
            · rw [g3 q hqe, i1 c]
              have : abs cwd (fullPath t e) ≠ q := fun h => hqe (by rw [h]; exact List.prefix_refl _)
              constructor
              · intro h; exact .inr ⟨fun ⟨_, b⟩ => this b, h⟩
              · rintro (⟨_, b, _⟩ | ⟨_, h⟩)
                · exact absurd b this
                · exact h
          · rw [hasDir_snoc, ← i2]
            by_cases hqe : q <+: abs cwd (fullPath t e)
            · by_cases hf : e.isDir = true ∨ q ≠ abs cwd (fullPath t e)
              · obtain ⟨k1, k2⟩ := g1 q hqe hf
                exact ⟨fun _ => .inr ⟨hqe, hf⟩, fun _ => k1⟩
              · have hfd : e.isDir = false := by
                  cases hx : e.isDir with
                  | true => exact absurd (.inl hx) hf
                  | false => rfl
                have hqP : q = abs cwd (fullPath t e) := Classical.byContradiction fun h => hf (.inr h)
                obtain ⟨k1, k2⟩ := g2 hfd
                constructor
                · intro h; rw [hqP, k1] at h; cases h
                · rintro (h | ⟨_, h⟩)
                  · rw [hqP] at h; exact absurd h k2
                  · exact absurd h hf
            · rw [g3 q hqe]
              exact ⟨.inl, fun h => h.elim id fun h => absurd h.1 hqe⟩

/-- **C94** (`C94_unzip`): when unpacking into an empty directory succeeds, what is in it is what is in the archive: each file has the content of its
    last entry, and there are no other files and directories. -/
theorem C94_unzip (cwd : List Str) (hc : ∀ x ∈ cwd, Ordinary x) (t : Path) (es : List Entry) (fs : FS) (hd : Dirs (abs cwd t) fs)
    (hempty : ∀ p, abs cwd t <+: p → p ≠ abs cwd t → fs p = none) (hok : (unzip cwd t fs es).2 = true) (p : List Str)
    (hp : abs cwd t <+: p) (hne : p ≠ abs cwd t) :
    (∀ c, (unzip cwd t fs es).1 p = some (.file c) ↔ LastFile (fun e => abs cwd (fullPath t e)) es p c) ∧
    ((unzip cwd t fs es).1 p = some .dir ↔ HasDir (fun e => abs cwd (fullPath t e)) es p) := by
  refine unzip_all hc es [] fs hd ?_ hok p hp hne
  intro q hq hqn
  rw [hempty q hq hqn]
  constructor
  · intro c
    constructor
    · intro h; cases h
    · rintro ⟨pre, e, post, h, _⟩; simp at h
  · constructor
    · intro h; cases h
    · rintro ⟨e, he, _⟩; cases he

end Verif.Support.GetGo
