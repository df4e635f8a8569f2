/-
C110, the theorems.
-/
import Verif.Cmd.CaseTraceProps

namespace Verif.Cmd.CaseTrace
open Verif.Cmd.CaseTrace.Spec

/-- **C110.** The traces of a package are below a directory for its module, the innermost one around the project; the names between module and
    project come in reverse order. -/
theorem C110_place (isMod : Path → Bool) (sum : Path → Str) (s : Session) (d : Path) (h : traceDir isMod sum s = some d) :
    ∃ root below, Module isMod s.dir root below ∧
      d = ["tmp".toList, "xgo".toList, "test-explorer".toList, "trace".toList, sum root] ++ below.reverse ++ s.itemDir := by
  unfold traceDir at h
  cases hf : findMod isMod s.dir.reverse with
  | none => rw [hf] at h; cases h
  | some p =>
    obtain ⟨sub, root⟩ := p
    rw [hf] at h
    cases h
    have := findMod_spec isMod _ sub root hf
    rw [List.reverse_reverse] at this
    refine ⟨root.reverse, sub.reverse, this, ?_⟩
    unfold consistentDir
    rw [List.reverse_reverse, List.append_assoc]

/-- **C110.** If the run has written a trace for the case, this is the trace shown, whatever was there before. -/
theorem C110_own (isMod : Path → Bool) (sum : Path → Str) (k : Disk) (s : Session) (t : Trace) (d : Path) (hd : traceDir isMod sum s = some d)
    (hc : s.case ≠ []) (hw : ∀ y ∈ s.wrote, y.1 ≠ []) (ht : lastOf s.case s.wrote = some t) : (session isMod sum k s).2 = some t := by
  unfold session
  rw [hd]
  show writeAll d k s.wrote (fileOf d s.case) = _
  rw [writeAll_last d s.case _ _ (fun y hy hh => fileOf_inj d (hw y hy) hc hh), ht]
  rfl

theorem sessions_at {isMod : Path → Bool} {sum : Path → Str} {s : Session} (hs : Usual isMod s) {n : List Str}
    (hn : ∃ x l, n = x :: l ∧ TestName x) :
    ∀ (h : List Session) (k : Disk), (∀ t ∈ h, Usual isMod t) → (∀ t ∈ h, sum t.dir = sum s.dir → t.dir = s.dir) →
      sessions isMod sum k h (fileOf (consistentDir sum s.dir s.itemDir) n) =
        (latest (pkg s) n h).or (k (fileOf (consistentDir sum s.dir s.itemDir) n)) := by
  intro h
  induction h with
  | nil => intro k _ _; rfl
  | cons t h ih =>
    intro k hu hsum
    have hut := hu t (.head _)
    have hst := hsum t (.head _)
    show sessions isMod sum (session isMod sum k t).1 h _ = _
    rw [ih _ (fun x hx => hu x (.tail _ hx)) (fun x hx => hsum x (.tail _ hx)), latest]
    cases latest (pkg s) n h with
    | some u => rfl
    | none =>
      rw [Option.none_or]
      show _ = (if pkg t = pkg s then lastOf n t.wrote else none).or _
      unfold session
      rw [usual_dir sum hut]
      show writeAll (consistentDir sum t.dir t.itemDir) k t.wrote _ = _
      by_cases hp : pkg t = pkg s
      · rw [if_pos hp]
        obtain ⟨e1, e2⟩ := Prod.mk.inj hp
        rw [e1, e2, writeAll_last _ n]
        intro y hy hh
        exact (file_inj (s := s) (t := s) (sum := sum) hs hs (fun _ => rfl) (hut.wrote y hy) hn hh).2
      · rw [if_neg hp, Option.none_or, writeAll_other]
        intro y hy hh
        exact hp (file_inj hut hs hst (hut.wrote y hy) hn hh).1

theorem shown_eq (isMod : Path → Bool) (sum : Path → Str) (k : Disk) (s : Session) (hs : Usual isMod s) :
    (session isMod sum k s).2 = sessions isMod sum k [s] (fileOf (consistentDir sum s.dir s.itemDir) s.case) := by
  show _ = (session isMod sum k s).1 _
  unfold session
  rw [usual_dir sum hs]

/-- **C110 (partial).** With usual projects whose modules have different sums, and whatever has been run before: the trace shown for a case is the
    last one that was written for this case of this package of this project, and none if there has never been one. What is missing: that it
    is the one of this run, see `C110_stale`; and other projects, see `C110_clash` and `C110_reversed`. -/
theorem C110_latest_partial (isMod : Path → Bool) (sum : Path → Str) (h : List Session) (s : Session) (hu : ∀ t ∈ h ++ [s], Usual isMod t)
    (hsum : ∀ t ∈ h ++ [s], sum t.dir = sum s.dir → t.dir = s.dir) :
    (session isMod sum (sessions isMod sum (fun _ => none) h) s).2 = latest (s.dir, s.itemDir) s.case (h ++ [s]) := by
  have hs := hu s (by simp)
  rw [shown_eq isMod sum _ s hs]
  have : sessions isMod sum (sessions isMod sum (fun _ => none) h) [s] = sessions isMod sum (fun _ => none) (h ++ [s]) := by
    unfold sessions; rw [List.foldl_append]
  rw [this, sessions_at hs hs.case _ _ hu hsum, Option.or_none]
  rfl

/-- **C110.** A run that writes no trace for the case (it does not compile, or is ended) shows that of an earlier run. -/
theorem C110_stale (isMod : Path → Bool) (sum : Path → Str) (k : Disk) (s t : Session) (hs : Usual isMod s) (hw : t.wrote = [])
    (hd : t.dir = s.dir) (hi : t.itemDir = s.itemDir) (hc : t.case = s.case) (u : Trace) (hu : lastOf s.case s.wrote = some u) :
    (session isMod sum (session isMod sum k s).1 t).2 = some u := by
  obtain ⟨x, l, hx, _⟩ := hs.case
  have h1 : traceDir isMod sum t = some (consistentDir sum s.dir s.itemDir) := by
    unfold traceDir
    rw [hd, hi]
    exact usual_dir sum hs
  have h2 := C110_own isMod sum k s u _ (usual_dir sum hs) (by rw [hx]; exact List.cons_ne_nil _ _)
    (fun y hy => by obtain ⟨a, b, e, _⟩ := hs.wrote y hy; rw [e]; exact List.cons_ne_nil _ _) hu
  unfold session at h2 ⊢
  rw [h1, hw, hc]
  rw [usual_dir sum hs] at h2 ⊢
  exact h2

/-- **C110.** A package in a directory that is named like a test shares traces with the subtests of the package above it. -/
theorem C110_clash (isMod : Path → Bool) (sum : Path → Str) (k : Disk) (root : Path) (d : List Str) (x y : Str) (u : Trace) (hm : isMod root = true) :
    (session isMod sum (session isMod sum k ⟨root, d, [x, y], [([x, y], u)]⟩).1 ⟨root, d ++ [x], [y], []⟩).2 = some u := by
  have h1 : ∀ i c w, traceDir isMod sum ⟨root, i, c, w⟩ = some (consistentDir sum root i) := by
    intro i c w
    unfold traceDir
    dsimp only
    rw [findMod_self isMod root hm]
    simp
  unfold session
  rw [h1, h1]
  have e : fileOf (consistentDir sum root (d ++ [x])) [y] = fileOf (consistentDir sum root d) [x, y] := by
    rw [fileOf_cons, fileOf_cons]
    simp [consistentDir]
  show put k (fileOf (consistentDir sum root d) [x, y]) u (fileOf (consistentDir sum root (d ++ [x])) [y]) = _
  rw [e]
  exact if_pos rfl

/-- **C110.** With a project that is two directories below its module, the traces of the package `b/a` of the module are shown for the package
    `a/b`. -/
theorem C110_reversed (isMod : Path → Bool) (sum : Path → Str) (k : Disk) (root : Path) (a b : Str) (c : List Str) (u : Trace)
    (hm : isMod root = true) (h1 : isMod (root ++ [a]) = false) (h2 : isMod (root ++ [a, b]) = false) :
    (session isMod sum (session isMod sum k ⟨root, [b, a], c, [(c, u)]⟩).1 ⟨root ++ [a, b], [], c, []⟩).2 = some u := by
  have e1 : traceDir isMod sum ⟨root, [b, a], c, [(c, u)]⟩ = some (consistentDir sum root [b, a]) := by
    unfold traceDir
    dsimp only
    rw [findMod_self isMod root hm]
    simp
  have e2 : traceDir isMod sum ⟨root ++ [a, b], [], c, []⟩ = some (consistentDir sum root [b, a]) := by
    unfold traceDir
    dsimp only
    have r : (root ++ [a, b]).reverse = b :: a :: root.reverse := by simp
    have r1 : (b :: a :: root.reverse).reverse = root ++ [a, b] := by simp
    have r2 : (a :: root.reverse).reverse = root ++ [a] := by simp
    rw [r, findMod, r1, if_neg (by rw [h2]; decide), findMod, r2, if_neg (by rw [h1]; decide), findMod_self isMod root hm]
    simp
  unfold session
  rw [e1, e2]
  show put k (fileOf (consistentDir sum root [b, a]) c) u (fileOf (consistentDir sum root [b, a]) c) = _
  exact if_pos rfl

/-! ### Cases -/

def exMod : Path → Bool := fun p => p = ["w".toList]
def exSum : Path → Str := fun p => "sum".toList ++ (p.flatMap id)

def exRun (w : List (List Str × Trace)) : Session := ⟨["w".toList], ["p".toList], ["TestA".toList, "sub".toList], w⟩

example : ∀ t ∈ [exRun [(["TestA".toList], 1), (["TestA".toList, "sub".toList], 2)], exRun []], Usual exMod t := by
  have t1 : TestName "TestA".toList := ⟨"A".toList, rfl⟩
  have np : ¬ TestName "p".toList := by rintro ⟨y, hy⟩; cases hy
  intro t ht
  simp only [List.mem_cons, List.not_mem_nil, or_false] at ht
  rcases ht with rfl | rfl
  · refine ⟨by decide, ?_, ⟨_, _, rfl, t1⟩, ?_⟩
    · intro x hx; rw [List.mem_singleton.1 hx]; exact np
    · intro y hy
      simp only [exRun, List.mem_cons, List.not_mem_nil, or_false] at hy
      rcases hy with rfl | rfl <;> exact ⟨_, _, rfl, t1⟩
  · refine ⟨by decide, ?_, ⟨_, _, rfl, t1⟩, fun y hy => by cases hy⟩
    intro x hx; rw [List.mem_singleton.1 hx]; exact np

example : fileOf ["d".toList] ["TestA".toList, "sub".toList] = ["d".toList, "TestA".toList, "sub.json".toList] := by decide +kernel
example : (session exMod exSum (fun _ => none) (exRun [(["TestA".toList], 1), (["TestA".toList, "sub".toList], 2)])).2 = some 2 := by decide +kernel
/-- The second run did not compile. -/
example : (session exMod exSum (sessions exMod exSum (fun _ => none) [exRun [(["TestA".toList], 1), (["TestA".toList, "sub".toList], 2)]]) (exRun [])).2 =
    some 2 := by decide +kernel
example : traceDir exMod exSum ⟨["w".toList, "a".toList, "b".toList], ["c".toList], [], []⟩ =
    some (["tmp", "xgo", "test-explorer", "trace", "sumw", "b", "a", "c"].map String.toList) := by decide +kernel
example : traceDir exMod exSum ⟨["v".toList], [], [], []⟩ = none := by decide +kernel

end Verif.Cmd.CaseTrace
