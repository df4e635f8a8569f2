/-
C110: the trace that the test explorer shows for a case.
-/
import Verif.Cmd.CaseTraceSpec

namespace Verif.Cmd.CaseTrace
open Verif.Cmd.CaseTrace.Spec

/-! ### The module -/

theorem findMod_spec (isMod : Path → Bool) : ∀ (r : List Str) (sub root : List Str), findMod isMod r = some (sub, root) →
    Module isMod r.reverse root.reverse sub.reverse := by
  intro r
  induction r with
  | nil =>
    intro sub root h
    rw [findMod] at h
    split at h
    · cases h
      rename_i hm
      exact ⟨rfl, hm, fun a b hab ha => (ha (List.append_eq_nil_iff.1 hab.symm).1).elim⟩
    · cases h
  | cons x r ih =>
    intro sub root h
    rw [findMod] at h
    by_cases hm : isMod (x :: r).reverse = true
    · rw [if_pos hm] at h
      cases h
      exact ⟨by simp, hm, fun a b hab ha => (ha (List.append_eq_nil_iff.1 hab.symm).1).elim⟩
    · rw [if_neg hm] at h
      cases hf : findMod isMod r with
      | none => rw [hf] at h; cases h
      | some p =>
        obtain ⟨s', r'⟩ := p
        rw [hf] at h
        cases h
        have hi := ih s' root hf
        refine ⟨?_, hi.mod, ?_⟩
        · rw [List.reverse_cons, hi.split]; simp
        · intro a b hab ha
          rw [List.reverse_cons] at hab
          rcases List.eq_nil_or_concat b with rfl | ⟨b', y, rfl⟩
          · rw [List.append_nil] at hab
            rw [← hab]
            have : root.reverse ++ (s'.reverse ++ [x]) = (x :: r).reverse := by
              rw [List.reverse_cons, hi.split, List.append_assoc]
            rw [this]
            simpa using hm
          · rw [List.concat_eq_append, ← List.append_assoc] at hab
            have := List.append_inj' hab rfl
            exact hi.inner a b' this.1 ha

theorem findMod_self (isMod : Path → Bool) (p : Path) (h : isMod p = true) : findMod isMod p.reverse = some ([], p.reverse) := by
  cases hr : p.reverse with
  | nil =>
    have : p = [] := List.reverse_eq_nil_iff.1 hr
    subst this
    rw [findMod, if_pos h]
  | cons x r =>
    have : (x :: r).reverse = p := by rw [← hr, List.reverse_reverse]
    rw [findMod, this, if_pos h]

/-! ### The files -/

theorem fileOf_cons (d : Path) (x : Str) (l : List Str) : fileOf d (x :: l) =
    d ++ ((x :: l).dropLast ++ [(x :: l).getLast (List.cons_ne_nil _ _) ++ ".json".toList]) := by
  induction l generalizing d x with
  | nil => rfl
  | cons y l ih =>
    rw [fileOf, ih]
    simp

theorem json_inj {n m : List Str} (hn : n ≠ []) (hm : m ≠ [])
    (h : n.dropLast ++ [n.getLast hn ++ ".json".toList] = m.dropLast ++ [m.getLast hm ++ ".json".toList]) : n = m := by
  obtain ⟨h1, h2⟩ := List.append_inj' h rfl
  have h3 : n.getLast hn = m.getLast hm := List.append_cancel_right (List.cons.inj h2).1
  rw [← List.dropLast_concat_getLast hn, ← List.dropLast_concat_getLast hm, h1, h3]

theorem fileOf_inj (d : Path) {n m : List Str} (hn : n ≠ []) (hm : m ≠ []) (h : fileOf d n = fileOf d m) : n = m := by
  cases n with
  | nil => exact (hn rfl).elim
  | cons x l =>
    cases m with
    | nil => exact (hm rfl).elim
    | cons y k =>
      rw [fileOf_cons, fileOf_cons] at h
      exact json_inj _ _ (List.append_cancel_left h)

/-- What comes first in the file's name. -/
theorem file_head (x : Str) (l : List Str) (h : TestName x) :
    ∃ z k, (x :: l).dropLast ++ [(x :: l).getLast (List.cons_ne_nil _ _) ++ ".json".toList] = z :: k ∧ TestName z := by
  obtain ⟨y, rfl⟩ := h
  cases l with
  | nil => exact ⟨_, _, rfl, y ++ ".json".toList, by simp⟩
  | cons w l => exact ⟨"Test".toList ++ y, _, rfl, y, rfl⟩

theorem split_inj {a b : List Str} {x y : Str} {l k : List Str} (ha : ∀ z ∈ a, ¬ TestName z) (hb : ∀ z ∈ b, ¬ TestName z) (hx : TestName x)
    (hy : TestName y) (h : a ++ x :: l = b ++ y :: k) : a = b ∧ x :: l = y :: k := by
  induction a generalizing b with
  | nil =>
    cases b with
    | nil => exact ⟨rfl, h⟩
    | cons z b =>
      have := (List.cons.inj h).1
      exact (hb z (.head _) (this ▸ hx)).elim
  | cons z a ih =>
    cases b with
    | nil =>
      have := (List.cons.inj h).1
      exact (ha z (.head _) (this ▸ hy)).elim
    | cons w b =>
      obtain ⟨h1, h2⟩ := List.cons.inj h
      obtain ⟨h3, h4⟩ := ih (fun z hz => ha z (.tail _ hz)) (fun z hz => hb z (.tail _ hz)) h2
      exact ⟨by rw [h1, h3], h4⟩

theorem usual_dir {isMod : Path → Bool} {s : Session} (sum : Path → Str) (h : Usual isMod s) :
    traceDir isMod sum s = some (consistentDir sum s.dir s.itemDir) := by
  unfold traceDir
  rw [findMod_self isMod s.dir h.mod]
  simp

/-- Files of usual sessions are the same only for the same test of the same package. -/
theorem file_inj {isMod : Path → Bool} {sum : Path → Str} {s t : Session} (hs : Usual isMod s) (ht : Usual isMod t)
    (hsum : sum s.dir = sum t.dir → s.dir = t.dir) {n m : List Str} (hn : ∃ x l, n = x :: l ∧ TestName x)
    (hm : ∃ x l, m = x :: l ∧ TestName x)
    (h : fileOf (consistentDir sum s.dir s.itemDir) n = fileOf (consistentDir sum t.dir t.itemDir) m) : pkg s = pkg t ∧ n = m := by
  obtain ⟨x, l, rfl, hx⟩ := hn
  obtain ⟨y, k, rfl, hy⟩ := hm
  rw [fileOf_cons, fileOf_cons] at h
  unfold consistentDir at h
  simp only [List.append_assoc, List.cons_append, List.nil_append, List.cons.injEq, true_and] at h
  obtain ⟨h1, h2⟩ := h
  obtain ⟨a, b, e1, ha⟩ := file_head x l hx
  obtain ⟨c, d, e2, hc⟩ := file_head y k hy
  have e1' := e1
  have e2' := e2
  rw [e1, e2] at h2
  obtain ⟨h3, h4⟩ := split_inj hs.dirs ht.dirs ha hc h2
  refine ⟨?_, json_inj _ _ (by rw [e1', e2', h4])⟩
  unfold pkg
  rw [hsum h1, h3]

/-! ### The disk -/

theorem writeAll_other (d : Path) (p : Path) : ∀ (w : List (List Str × Trace)) (k : Disk), (∀ y ∈ w, fileOf d y.1 ≠ p) → writeAll d k w p = k p := by
  intro w
  induction w with
  | nil => intro k _; rfl
  | cons y w ih =>
    intro k h
    obtain ⟨n, t⟩ := y
    rw [writeAll, ih _ (fun z hz => h z (.tail _ hz))]
    unfold put
    rw [if_neg (fun hh => h _ (.head _) hh.symm)]

theorem lastOf_append (n : List Str) (a b : List (List Str × Trace)) : lastOf n (a ++ b) = (lastOf n b).or (lastOf n a) := by
  unfold lastOf
  rw [List.reverse_append, List.find?_append]
  cases (b.reverse.find? fun x => x.1 = n) <;> rfl

theorem writeAll_last (d : Path) (n : List Str) : ∀ (w : List (List Str × Trace)) (k : Disk), (∀ y ∈ w, fileOf d y.1 = fileOf d n → y.1 = n) →
    writeAll d k w (fileOf d n) = (lastOf n w).or (k (fileOf d n)) := by
  intro w
  induction w with
  | nil => intro k _; rfl
  | cons y w ih =>
    intro k h
    obtain ⟨m, t⟩ := y
    rw [writeAll, ih _ (fun z hz => h z (.tail _ hz)), show (m, t) :: w = [(m, t)] ++ w from rfl, lastOf_append]
    cases lastOf n w with
    | some u => rfl
    | none =>
      unfold put
      by_cases hm : m = n
      · subst hm
        simp [lastOf]
      · rw [if_neg (fun hh => hm (h _ (.head _) hh.symm))]
        simp [lastOf, hm]

end Verif.Cmd.CaseTrace
