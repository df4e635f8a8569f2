/-
C102: the hooks are put into the sources of Go at their places, once, and can be taken out.
-/
import Verif.Instrument.GoHooksMain

namespace Verif.Instrument.GoHooks
open Verif.Text Verif.Instrument.PatchText Verif.Instrument.PatchText.Spec Spec

theorem instrumentAll_step {major minor : Nat} {f : File} {fs : List File} {t : File → Str} {c : Str}
    (h : instrumentFile major minor f (t f) = (c, true)) :
    instrumentAll major minor (f :: fs) t = instrumentAll major minor fs (fun g => if g = f then c else t g) := by
  simp only [instrumentAll, h, if_true]

theorem instrumentAll_stop {major minor : Nat} {f : File} {fs : List File} {t : File → Str} {c : Str}
    (h : instrumentFile major minor f (t f) = (c, false)) :
    instrumentAll major minor (f :: fs) t = (fun g => if g = f then c else t g, false) := by
  simp [instrumentAll, h]

/-- The files of a list of which each is edited. -/
theorem instrumentAll_append {major minor : Nat} (r : File → Str) : ∀ (fs rest : List File) (t : File → Str), fs.Nodup →
    (∀ f ∈ fs, instrumentFile major minor f (t f) = (r f, true)) →
    instrumentAll major minor (fs ++ rest) t = instrumentAll major minor rest (fun g => if g ∈ fs then r g else t g)
  | [], rest, t, _, _ => by simp
  | f :: fs, rest, t, hn, h => by
    rw [List.cons_append, instrumentAll_step (h f (by simp)), instrumentAll_append r fs rest _ (List.nodup_cons.1 hn).2]
    · congr 1
      funext g
      by_cases h1 : g = f
      · rw [h1, if_neg (List.nodup_cons.1 hn).1]; simp
      · simp [h1]
    · intro g hg
      have : g ≠ f := fun e => (List.nodup_cons.1 hn).1 (e ▸ hg)
      simp only [if_neg this]
      exact h g (List.mem_cons_of_mem _ hg)

theorem hooked_file {major minor : Nat} (hv : major = 1 ∧ 17 ≤ minor ∧ minor ≤ 26) {f : File} {p g : Patched} (hc : Unmarked p.original)
    (hu : Undoable Unmarked LabelOk p.parts p.rest) (h : Hooked major minor f p.original g) :
    instrumentFile major minor f p.text = (g.text, true) ∧ instrumentFile major minor f g.text = (g.text, true) ∧ g.original = p.original ∧
      Undoable Unmarked LabelOk g.parts g.rest := by
  have d := done h hc
  have hs : supported major minor = true := by
    obtain ⟨rfl, h1, h2⟩ := hv
    simp [supported, h1, h2]
  have hn : ∀ x, instrumentFile major minor f x = editFile x (editOf major minor f) := by
    intro x
    unfold instrumentFile
    rw [if_neg]
    rintro ⟨_, h⟩
    rw [hs] at h
    exact absurd h (by decide)
  obtain ⟨h1, h2⟩ := C56_idempotent p g hc hu d.undo d.original (editOf major minor f) d.edit (by rw [d.original]; exact d.changed)
  rw [h1] at h2
  exact ⟨by rw [hn, h1], by rw [hn, h2], d.original, d.undo⟩

theorem order_nodup : order.Nodup := by decide
theorem mem_order (f : File) : f ∈ order := by cases f <;> decide

/-- **C102.** For Go 1.17 to 1.26, whatever edits an earlier version of xgo has left in the sources: each file becomes its original
    text with the hooks of this version at their places. -/
theorem C102_hooks (major minor : Nat) (hv : major = 1 ∧ 17 ≤ minor ∧ minor ≤ 26) (t : Tree) (g : File → Patched)
    (h : ∀ f, Hooked major minor f (t.file f).original (g f)) :
    instrument major minor (fun f => (t.file f).text) = (fun f => (g f).text, true) := by
  have := instrumentAll_append (major := major) (minor := minor) (fun f => (g f).text) order [] (fun f => (t.file f).text) order_nodup
    (fun f _ => (hooked_file hv (t.clean f) (t.undo f) (h f)).1)
  rw [List.append_nil] at this
  unfold instrument
  rw [this]
  show ((fun f => if f ∈ order then (g f).text else (t.file f).text), true) = _
  congr 1
  funext f
  rw [if_pos (mem_order f)]

/-- **C102.** Once: doing it again changes nothing. -/
theorem C102_again (major minor : Nat) (hv : major = 1 ∧ 17 ≤ minor ∧ minor ≤ 26) (t : Tree) (g : File → Patched)
    (h : ∀ f, Hooked major minor f (t.file f).original (g f)) :
    instrument major minor (instrument major minor (fun f => (t.file f).text)).1 = (fun f => (g f).text, true) := by
  rw [C102_hooks major minor hv t g h]
  have := instrumentAll_append (major := major) (minor := minor) (fun f => (g f).text) order [] (fun f => (g f).text) order_nodup
    (fun f _ => (hooked_file hv (t.clean f) (t.undo f) (h f)).2.1)
  rw [List.append_nil] at this
  unfold instrument
  rw [this]
  show ((fun f => if f ∈ order then (g f).text else (g f).text), true) = _
  congr 1
  funext f
  rw [if_pos (mem_order f)]

/-- **C102.** The hooks can be taken out: removing them gives the files of the Go distribution. -/
theorem C102_undo (major minor : Nat) (hv : major = 1 ∧ 17 ≤ minor ∧ minor ≤ 26) (t : Tree) (g : File → Patched)
    (h : ∀ f, Hooked major minor f (t.file f).original (g f)) (f : File) :
    cleanPatch ((instrument major minor (fun f => (t.file f).text)).1 f) = (t.file f).original := by
  rw [C102_hooks major minor hv t g h]
  obtain ⟨_, _, ho, hu⟩ := hooked_file hv (t.clean f) (t.undo f) (h f)
  show cleanPatch (g f).text = _
  rw [C25_clean (g f) (by rw [ho]; exact t.clean f) hu, ho]

/-! ### Errors -/

theorem upd_none {name : String} {w : String} {seq : List String} {i : Nat} {pos : Position} {new content : Str} (hp : pos ≠ .replace)
    (hi : i < (w :: seq).length) (h : ¬ w.toList <:+: content) : upd name (w :: seq) i pos new content = none := by
  unfold upd
  refine (C26_ambiguous content (bm name) (em name) new ((w :: seq).map String.toList) i (by simpa using hi) pos hp).1 ?_
  rintro ⟨parts, rest, ha⟩
  apply h
  cases hpt : parts with
  | nil => have := ha.2; rw [hpt] at this; simp at this
  | cons q l =>
    have h1 := ha.2
    rw [hpt] at h1
    simp only [List.map_cons, List.cons.injEq] at h1
    rw [ha.1, hpt]
    simp only [joined, ← h1.1]
    exact ⟨q.1, joined l rest, by simp⟩

theorem lacks_none {major minor : Nat} {f : File} {s : Str} (hv : major = 1) (h : Lacks major minor f s) : editOf major minor f s = none := by
  cases h with
  | runtime2 h =>
    show editRuntime2 s = none
    unfold editRuntime2
    exact upd_none (by decide) (by decide) h
  | timeNow h =>
    show editTimeNow s = none
    unfold editTimeNow
    rw [cut_none.2 h]
  | timeSleep h =>
    show editSleep s = none
    unfold editSleep
    rw [cut_none.2 h]
  | runtimeTime h =>
    show editRuntimeSleep s = none
    unfold editRuntimeSleep
    rw [cut_none.2 h]
  | json h =>
    show (upd _ _ _ _ _ s).bind _ = none
    rw [upd_none (by decide) (by decide) h]
    rfl
  | testing h =>
    show (upd _ _ _ _ _ s).bind _ = none
    rw [upd_none (by decide) (by decide) h]
    rfl
  | proc decl call hd h =>
    show editProc major minor s = none
    unfold editProc editNewproc newprocSeq
    rw [decl_anchor hd]
    rw [upd_none (by decide) (by simp) h]
    rfl

/-- **C102.** If a file has not got the place where its first hook belongs, this is an error: the files edited before are edited, the
    file and those after it are as they were. -/
theorem C102_missing (major minor : Nat) (hv : major = 1 ∧ 17 ≤ minor ∧ minor ≤ 26) (t : Tree) (g : File → Patched) (pre post : List File)
    (f : File) (ho : [File.runtime2, .proc, .timeNow, .timeSleep, .runtimeTime, .json, .testing] = pre ++ f :: post)
    (h : ∀ f ∈ pre, Hooked major minor f (t.file f).original (g f)) (hl : Lacks major minor f (t.file f).original) :
    (instrument major minor (fun f => (t.file f).text)).2 = false ∧
    (∀ e ∈ pre, (instrument major minor (fun f => (t.file f).text)).1 e = (g e).text) ∧
    ∀ e ∈ f :: post, (instrument major minor (fun f => (t.file f).text)).1 e = (t.file e).text := by
  have ho' : order = pre ++ f :: post := ho
  have hn : (pre ++ f :: post).Nodup := ho' ▸ order_nodup
  obtain ⟨n1, n2, n3⟩ := List.nodup_append.1 hn
  have hs : instrumentFile major minor f (t.file f).text = ((t.file f).text, false) := by
    unfold instrumentFile
    have hs : supported major minor = true := by
      obtain ⟨rfl, h1, h2⟩ := hv
      simp [supported, h1, h2]
    rw [if_neg (by rw [hs]; simp)]
    exact C56_error _ (t.clean f) (t.undo f) _ (lacks_none hv.1 hl)
  have hf : f ∉ pre := fun hf => n3 f hf f (by simp) rfl
  have hr := instrumentAll_append (major := major) (minor := minor) (fun f => (g f).text) pre (f :: post) (fun f => (t.file f).text) n1
    (fun f hf => (hooked_file hv (t.clean f) (t.undo f) (h f hf)).1)
  unfold instrument
  rw [ho', hr, instrumentAll_stop (c := (t.file f).text) (by simp only [if_neg hf]; exact hs)]
  refine ⟨rfl, fun e he => ?_, fun e he => ?_⟩
  · have : e ≠ f := fun x => hf (x ▸ he)
    simp only [if_neg this, if_pos he]
  · have : e ∉ pre := fun x => n3 e x e he rfl
    by_cases hef : e = f
    · simp only [hef, if_true]
    · simp only [if_neg hef, if_neg this]

/-- **C102.** Sources of a version that xgo does not know are left alone, and this is an error. -/
theorem C102_unsupported (major minor : Nat) (hv : major ≠ 1 ∨ minor < 17 ∨ 26 < minor) (t : File → Str) :
    instrument major minor t = (t, false) := by
  have hs : supported major minor = false := by
    simp only [supported, Bool.and_eq_false_iff, decide_eq_false_iff_not]
    omega
  have : instrumentFile major minor .runtime2 (t .runtime2) = (t .runtime2, false) := by
    unfold instrumentFile
    rw [if_pos ⟨by decide, hs⟩]
  show instrumentAll major minor (.runtime2 :: _) t = _
  rw [instrumentAll_stop this]
  congr 1
  funext g
  by_cases h : g = .runtime2
  · rw [if_pos h, h]
  · rw [if_neg h]

/-! ### Lines -/

theorem line_append (a b : Str) : line (a ++ b) = line a + line b := List.count_append

theorem line_text : ∀ (l : List (Str × Mark)) (r : Str), (∀ q ∈ l, line q.2.text = line q.2.old) → line (text l r) = line (original l r)
  | [], r, _ => rfl
  | (p, m) :: l, r, h => by
    have := h (p, m) (by simp)
    simp only [text, original, line_append, line_text l r (fun q hq => h q (List.mem_cons_of_mem _ hq)), this]

theorem hooked_lines {major minor : Nat} {f : File} {s : Str} {g : Patched} (h : Hooked major minor f s g) (h1 : f ≠ .timeNow)
    (h2 : f ≠ .runtimeTime) : ∀ q ∈ g.parts, line q.2.text = line q.2.old := by
  cases h with
  | runtime2 => intro q hq; simp only [List.mem_singleton] at hq; subst hq; dsimp only; decide +kernel
  | timeNow => exact absurd rfl h1
  | runtimeTime => exact absurd rfl h2
  | timeSleep => intro q hq; simp only [List.mem_singleton] at hq; subst hq; dsimp only; decide +kernel
  | json =>
    intro q hq
    simp only [List.mem_cons, List.not_mem_nil, or_false] at hq
    rcases hq with rfl | rfl <;> (dsimp only; decide +kernel)
  | testing =>
    intro q hq
    simp only [List.mem_cons, List.not_mem_nil, or_false] at hq
    rcases hq with rfl | rfl <;> (dsimp only; decide +kernel)
  | proc decl call m0 m1 m2 m3 m4 m5 b c n1 n2 n r1 r2 r3 race =>
    intro q hq
    simp only [List.mem_cons, List.not_mem_nil, or_false] at hq
    rcases hq with rfl | rfl | rfl | rfl | rfl
    · dsimp only; decide +kernel
    · dsimp only; decide +kernel
    · dsimp only; decide +kernel
    · obtain ⟨i, l⟩ := race
      cases i <;> cases l <;> (dsimp only; decide +kernel)
    · dsimp only; decide +kernel

/-- **C102.** The text of Go's files stays on its lines: what is before a hook, and what is after it, is on the line on which it was.
    There are two exceptions: what follows the linkname in runtime/time.go is one line lower; and the copy of `time.Now` is new. -/
theorem C102_lines (major minor : Nat) (f : File) (s : Str) (g : Patched) (h : Hooked major minor f s g) :
    (∀ l1 p m l2, g.parts = l1 ++ (p, m) :: l2 → line (text l1 p) = line (original l1 p)) ∧
    (f ≠ .timeNow → line g.text = line g.original + (if f = .runtimeTime then 1 else 0)) := by
  by_cases h1 : f = .timeNow
  · subst h1
    refine ⟨?_, fun h => absurd rfl h⟩
    cases h with
    | timeNow a b c =>
      intro l1 p m l2 e
      cases l1 with
      | nil => rfl
      | cons x l => simp at e
  · by_cases h2 : f = .runtimeTime
    · subst h2
      cases h with
      | runtimeTime a b =>
        refine ⟨?_, fun _ => ?_⟩
        · intro l1 p m l2 e
          cases l1 with
          | nil => rfl
          | cons x l => simp at e
        · simp only [Patched.text, Patched.original, text, original, line_append, if_true]
          have : line (Mark.line "xgo_runtime_time_linkname".toList "//go:linkname timeSleep time.Sleep".toList
            "//go:linkname timeSleep time.XgoRealSleep".toList).text = 1 := by decide +kernel
          have h0 : line (Mark.line "xgo_runtime_time_linkname".toList "//go:linkname timeSleep time.Sleep".toList
            "//go:linkname timeSleep time.XgoRealSleep".toList).old = 0 := by decide +kernel
          rw [this, h0]
          omega
    · have hl := hooked_lines h h1 h2
      refine ⟨fun l1 p m l2 e => line_text l1 p (fun q hq => hl q (by rw [e]; exact List.mem_append_left _ hq)), fun _ => ?_⟩
      rw [if_neg h2]
      exact line_text _ _ hl

/-! ### A small Go distribution -/

theorem nb (w s : Str) (h : (cut w (s ++ w).dropLast).isNone = true) : NotBefore w s := by
  unfold NotBefore
  exact no_infix h

/-- proc.go: `main`, `goexit1`, `newproc`, `newproc1`. -/
def procParts : List Str :=
  ["package runtime\n\n", "\n\t", "&", "", "\n\t", "main_inittasks)\n\t", "\n}\n\n", "\n\tmcall(goexit0)\n}\n\n",
   " *funcval) {\n\tgp := getg()\n\tpc := getcallerpc()\n\t", "\n\t\t", "\n\t\trunqput(newg)\n\t})\n}\n\n",
   "fn *funcval) *g {\n\t", "\n\t\tnewg.racectx = ", "pc)\n\t\tnewg.raceignore = 0\n\t}\n\treturn newg\n}\n\nfunc gdestroy(gp *g) {\n}\n"].map
    String.toList
/-- A piece of it. -/
def pp (i : Nat) : Str := procParts.getD i []

/-- proc.go, up to `close(main_init_done)`. -/
def pA : Str := pp 0 ++ "func main() {".toList ++ (pp 1 ++ "doInit(".toList ++ (pp 2 ++ "runtime_inittask".toList ++ (pp 3 ++ ")".toList ++
  (pp 4 ++ "doInit(".toList ++ pp 5))))
/-- From the parameters of `newproc1` on. -/
def pE : Str := pp 11 ++ "if raceenabled {".toList ++ pp 12 ++ "racegostart(".toList ++ pp 13
/-- From the parameters of `newproc` on. -/
def pD : Str := pp 8 ++ "systemstack(func() {".toList ++ pp 9 ++ "newg := newproc1(fn, gp, pc)".toList ++ pp 10 ++ "func newproc1(".toList ++ pE
/-- From the body of `goexit1` on. -/
def pC : Str := pp 7 ++ "func newproc(fn".toList ++ pD
/-- From `close(main_init_done)` on. -/
def pB : Str := pp 6 ++ "func goexit1() {".toList ++ pC

/-- The files of the small distribution with their hooks. -/
def sampleHooks : File → Patched
  | .runtime2 => ⟨[("package runtime\n\n".toList ++ "type g struct {".toList ++ "\n\tgoid uint64\n".toList,
      ins "instrument_runtime2_xgo_g" "__xgo_g __xgo_g;".toList)], "}\n".toList ++ "\ntype m struct {\n}\n".toList⟩
  | .timeNow => ⟨[("package time\n\n".toList ++ "func Now() Time {".toList ++ "\n\treturn now()".toList ++ "\n}\n".toList ++
      "\nfunc Since() {}\n".toList, ins "add_xgo_real_time_now" ("func XgoRealNow() Time {".toList ++ "\n\treturn now()".toList ++
      "\n}".toList))], []⟩
  | .timeSleep => ⟨[("package time\n\n".toList, .region "xgo_time_sleep".toList "func Sleep(d Duration)".toList
      "func XgoRealSleep(d Duration);func /*xgo_instrumented*/Sleep(d Duration){ XgoRealSleep(d); }".toList)], "\n\ntype Timer int\n".toList⟩
  | .runtimeTime => ⟨[("package runtime\n\n".toList, .line "xgo_runtime_time_linkname".toList "//go:linkname timeSleep time.Sleep".toList
      "//go:linkname timeSleep time.XgoRealSleep".toList)], '\n' :: "func timeSleep(ns int64) {\n}\n".toList⟩
  | .json => ⟨[("// Copyright\n".toList ++ "package json".toList, ins "instrument_json_encoding_import_runtime"
      ";import __xgo_runtime \"runtime\"".toList),
      ("\n\n".toList ++ "func unsupportedTypeEncoder(".toList ++ "e *encodeState, v reflect.Value, _ encOpts".toList ++ ") {".toList,
      ins "instrument_json_encoding_unsupported_type_encoder"
      "if __xgo_runtime.XgoIsLooseJsonMarshaling() { e.WriteString(fmt.Sprintf(\"{%q:%q}\", v.Type().String(), \"?\")); return; }".toList)],
      "\n\te.error(v)\n}\n".toList⟩
  | .testing => ⟨[("package testing\n\n".toList, ins "declare_XgoTestNameToDir" "var XgoTestNameToDir map[string]string;".toList),
      ("func runTests(".toList ++ "tests []InternalTest) {\n\t".toList ++ "tRunner(t, func(t *T) {".toList ++ "\n\t\t".toList,
      ins "check_XgoTestNameToDir" "if xgoDir := XgoTestNameToDir[test.Name]; xgoDir != \"\" { os.Chdir(xgoDir); };".toList)],
      "t.Run(test.Name,".toList ++ " test.F)\n\t})\n}\n".toList⟩
  | .proc => ⟨[(pA, ins "set_init_finished_mark" "__xgo_callback_on_init_finished();".toList),
      ("close(main_init_done)".toList ++ pp 6 ++ "func goexit1() {".toList, ins "add_go_exit1_callback" ";__xgo_callback_on_exit_g()".toList),
      (pp 7 ++ "func newproc(fn".toList ++ pp 8, ins "declare_xgo_curg" "__xgo_curg := gp.m.curg;var __xgo_newg *g;".toList),
      ("systemstack(func() {".toList ++ pp 9 ++ "newg := newproc1(fn, gp, pc)".toList, ins "add_go_newproc_callback_v2"
        (";__xgo_newg=newg});__xgo_callback_on_create_g(__xgo_curg,__xgo_newg);systemstack(func(){newg:=__xgo_newg;".toList ++
        Race.text ⟨true, false⟩)),
      (pp 10 ++ "func newproc1(".toList ++ pp 11, .region "xgo_proc_defer_racegostart".toList "if raceenabled {".toList
        "if false { // xgo: race setup moved after create callback (#341)".toList)], pp 12 ++ "racegostart(".toList ++ pp 13⟩

/-- The same files as an older version of xgo left them: its edit of runtime2.go was another one, and it made no others. -/
def sampleOlder : File → Patched
  | .runtime2 => ⟨[("package runtime\n\n".toList ++ "type g struct {".toList ++ "\n\tgoid uint64\n".toList,
      ins "xgo_old_g" "__xgo_old;".toList)], "}\n".toList ++ "\ntype m struct {\n}\n".toList⟩
  | f => ⟨[], (sampleHooks f).original⟩

/-- The tree. -/
def sampleTree : Tree where
  file := sampleOlder
  clean := fun f => by cases f <;> exact unmarked_of (by decide +kernel)
  undo := fun f => by
    cases f <;> first
      | exact trivial
      | exact ⟨label_ok (by decide), unmarked_of (by decide +kernel), ⟨no_infix (by decide +kernel), fun _ => no_infix (by decide +kernel)⟩, trivial⟩

theorem hooked_cast {major minor : Nat} {f : File} {s s' : Str} {g g' : Patched} (h : Hooked major minor f s g) (e : s = s') (e' : g = g') :
    Hooked major minor f s' g' := e ▸ e' ▸ h

theorem sampleHooked (f : File) : Hooked 1 22 f (sampleTree.file f).original (sampleHooks f) := by
  cases f with
  | runtime2 =>
    exact hooked_cast (.runtime2 "package runtime\n\n".toList "\n\tgoid uint64\n".toList "\ntype m struct {\n}\n".toList
      ⟨nb _ _ (by decide +kernel), no_infix (by decide +kernel)⟩ (nb _ _ (by decide +kernel))) (by decide +kernel) rfl
  | timeNow =>
    exact hooked_cast (.timeNow "package time\n\n".toList "\n\treturn now()".toList "\nfunc Since() {}\n".toList
      (nb _ _ (by decide +kernel)) (nb _ _ (by decide +kernel)) (no_infix (by decide +kernel)) (no_infix (by decide +kernel))
      (.inr ⟨"\nfunc Since() {}".toList, by decide +kernel⟩)) (by decide +kernel) rfl
  | timeSleep =>
    exact hooked_cast (.timeSleep "package time\n\n".toList "\n\ntype Timer int\n".toList (nb _ _ (by decide +kernel)))
      (by decide +kernel) rfl
  | runtimeTime =>
    exact hooked_cast (.runtimeTime "package runtime\n\n".toList "func timeSleep(ns int64) {\n}\n".toList
      (nb _ _ (by decide +kernel))) (by decide +kernel) rfl
  | json =>
    exact hooked_cast (.json "// Copyright\n".toList "\n\n".toList "e *encodeState, v reflect.Value, _ encOpts".toList
      "\n\te.error(v)\n}\n".toList ⟨nb _ _ (by decide +kernel), no_infix (by decide +kernel)⟩ (by decide +kernel)
      ⟨nb _ _ (by decide +kernel), no_infix (by decide +kernel)⟩ (nb _ _ (by decide +kernel)) (by decide +kernel)) (by decide +kernel) rfl
  | testing =>
    exact hooked_cast (.testing "package testing\n\n".toList "tests []InternalTest) {\n\t".toList "\n\t\t".toList
      " test.F)\n\t})\n}\n".toList ⟨nb _ _ (by decide +kernel), no_infix (by decide +kernel)⟩ (nb _ _ (by decide +kernel))
      (nb _ _ (by decide +kernel))) (by decide +kernel) rfl
  | proc =>
    refine hooked_cast (.proc "func newproc(fn" "newg := newproc1(fn, gp, pc)" (pp 0) (pp 1) (pp 2) (pp 3) (pp 4) (pp 5) (pp 6) (pp 7) (pp 8)
      (pp 9) (pp 10) (pp 11) (pp 12) (pp 13) ⟨true, false⟩
      "fn *funcval) *g {\n\tif raceenabled {\n\t\tnewg.racectx = racegostart(pc)\n\t\tnewg.raceignore = 0\n\t}\n\treturn newg\n}\n".toList
      pA pB pC pD pE (.go22 (by decide) (by decide)) rfl rfl rfl rfl rfl
      ⟨nb _ _ (by decide +kernel), no_infix (by decide +kernel)⟩ (nb _ _ (by decide +kernel)) (nb _ _ (by decide +kernel))
      (nb _ _ (by decide +kernel)) (nb _ _ (by decide +kernel)) (nb _ _ (by decide +kernel)) (by decide +kernel)
      ⟨nb _ _ (by decide +kernel), no_infix (by decide +kernel)⟩ (by decide +kernel)
      ⟨nb _ _ (by decide +kernel), no_infix (by decide +kernel)⟩ (nb _ _ (by decide +kernel)) (nb _ _ (by decide +kernel))
      ⟨[], "\t\trunqput(newg)\n\t".toList, "\n".toList, "\n\n".toList, by decide +kernel, nb _ _ (by decide +kernel),
        nb _ _ (by decide +kernel), nb _ _ (by decide +kernel)⟩
      ⟨nb _ _ (by decide +kernel), no_infix (by decide +kernel)⟩ (nb _ _ (by decide +kernel)) (nb _ _ (by decide +kernel))
      (.inr ⟨nb _ _ (by decide +kernel), "gdestroy(gp *g) {\n}\n".toList, by decide +kernel⟩)
      ⟨⟨fun _ => ?_, fun _ => rfl⟩, ⟨(fun h => (by cases h)), fun h => absurd h (no_infix (by decide +kernel))⟩⟩) (by decide +kernel) rfl
    exact contains_iff.1 (by decide +kernel)

/-- The small distribution meets the hypotheses of the theorems. -/
example : ∀ f, Hooked 1 22 f (sampleTree.file f).original (sampleHooks f) := sampleHooked

/-- What it becomes: runtime2.go and the body of `newproc`. -/
example : (instrument 1 22 (fun f => (sampleTree.file f).text)).1 .runtime2 =
    "package runtime\n\ntype g struct {\n\tgoid uint64\n/*<begin instrument_runtime2_xgo_g>*/__xgo_g __xgo_g;/*<end instrument_runtime2_xgo_g>*/}\n\ntype m struct {\n}\n".toList := by
  rw [C102_hooks 1 22 (by decide) sampleTree sampleHooks sampleHooked]
  decide +kernel

example : ((instrument 1 22 (fun f => (sampleTree.file f).text)).1 .timeSleep) =
    "package time\n\n/*<begin xgo_time_sleep>*//*old:func Sleep(d Duration)*/func XgoRealSleep(d Duration);func /*xgo_instrumented*/Sleep(d Duration){ XgoRealSleep(d); }/*<end xgo_time_sleep>*/\n\ntype Timer int\n".toList := by
  rw [C102_hooks 1 22 (by decide) sampleTree sampleHooks sampleHooked]
  decide +kernel

/-- Without `runTests`, testing.go is an error, and the files before it have their hooks. -/
def noTests : Tree where
  file := fun f => match f with
    | .testing => ⟨[], "package testing\n".toList⟩
    | f => sampleOlder f
  clean := fun f => by
    cases f <;> first
      | exact sampleTree.clean _
      | exact unmarked_of (by decide +kernel)
  undo := fun f => by
    cases f <;> first
      | exact trivial
      | exact sampleTree.undo _

example : (instrument 1 22 (fun f => (noTests.file f).text)).2 = false ∧
    (instrument 1 22 (fun f => (noTests.file f).text)).1 .json = (sampleHooks .json).text := by
  have h := C102_missing 1 22 (by decide) noTests sampleHooks [.runtime2, .proc, .timeNow, .timeSleep, .runtimeTime, .json] [] .testing rfl
    (by
      intro f hf
      cases f <;> first
        | exact sampleHooked _
        | exact absurd hf (by decide)) (.testing (no_infix (by decide +kernel)))
  exact ⟨h.1, h.2.1 .json (by decide)⟩

end Verif.Instrument.GoHooks
