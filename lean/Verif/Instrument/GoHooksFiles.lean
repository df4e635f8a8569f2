/-
C102: the edits of the other files.
-/
import Verif.Instrument.GoHooksEdit

namespace Verif.Instrument.GoHooks
open Verif.Text Verif.Instrument.PatchText Verif.Instrument.PatchText.Spec Spec

theorem done_json (a b c d : Str)
    (h1 : Once "package json" a (b ++ "func unsupportedTypeEncoder(".toList ++ c ++ ") {".toList ++ d)) (hb : '\n' ∈ b)
    (h2 : Once "func unsupportedTypeEncoder(" (a ++ "package json".toList ++ b) (c ++ ") {".toList ++ d)) (hc : NotBefore ") {".toList c)
    (hd : '\n' ∈ d)
    (hs : Unmarked (a ++ "package json".toList ++ b ++ "func unsupportedTypeEncoder(".toList ++ c ++ ") {".toList ++ d)) :
    Done editJson (a ++ "package json".toList ++ b ++ "func unsupportedTypeEncoder(".toList ++ c ++ ") {".toList ++ d)
      ⟨[(a ++ "package json".toList, ins "instrument_json_encoding_import_runtime" ";import __xgo_runtime \"runtime\"".toList),
        (b ++ "func unsupportedTypeEncoder(".toList ++ c ++ ") {".toList, ins "instrument_json_encoding_unsupported_type_encoder"
          "if __xgo_runtime.XgoIsLooseJsonMarshaling() { e.WriteString(fmt.Sprintf(\"{%q:%q}\", v.Type().String(), \"?\")); return; }".toList)], d⟩ where
  edit := edit_json (ins_ok (label := "instrument_json_encoding_import_runtime") (by decide) (by decide))
    (ins_ok (label := "instrument_json_encoding_unsupported_type_encoder") (by decide) (by decide +kernel)) (by decide) (by decide) (by decide) rfl
    h1.1 h1.2 hb h2.1 h2.2 hc hd (tag_free hs _) (tag_free hs _) (no_infix (by decide +kernel)) (by decide) (no_infix (by decide +kernel))
  original := by
    show a ++ "package json".toList ++ [] ++ (b ++ "func unsupportedTypeEncoder(".toList ++ c ++ ") {".toList ++ [] ++ d) = _
    generalize "package json".toList = k1
    generalize "func unsupportedTypeEncoder(".toList = k2
    generalize ") {".toList = k3
    simp only [List.append_assoc, List.nil_append]
  undo := ⟨label_ok (by decide), unmarked_of (by decide +kernel), ⟨no_infix (by decide +kernel), fun _ => no_infix (by decide +kernel)⟩,
    label_ok (by decide), unmarked_of (by decide +kernel), ⟨no_infix (by decide +kernel), fun _ => no_infix (by decide +kernel)⟩, trivial⟩
  changed := changed_of hs (.inl (begin_ins _ _))

theorem done_testing (a b c d : Str)
    (h1 : Once "func runTests(" a (b ++ "tRunner(t, func(t *T) {".toList ++ c ++ "t.Run(test.Name,".toList ++ d))
    (h2 : NotBefore "tRunner(t, func(t *T) {".toList b) (h3 : NotBefore "t.Run(test.Name,".toList c)
    (hs : Unmarked (a ++ "func runTests(".toList ++ b ++ "tRunner(t, func(t *T) {".toList ++ c ++ "t.Run(test.Name,".toList ++ d)) :
    Done editTesting (a ++ "func runTests(".toList ++ b ++ "tRunner(t, func(t *T) {".toList ++ c ++ "t.Run(test.Name,".toList ++ d)
      ⟨[(a, ins "declare_XgoTestNameToDir" "var XgoTestNameToDir map[string]string;".toList),
        ("func runTests(".toList ++ b ++ "tRunner(t, func(t *T) {".toList ++ c, ins "check_XgoTestNameToDir"
          "if xgoDir := XgoTestNameToDir[test.Name]; xgoDir != \"\" { os.Chdir(xgoDir); };".toList)], "t.Run(test.Name,".toList ++ d⟩ where
  edit := edit_testing (ins_ok (label := "declare_XgoTestNameToDir") (by decide) (by decide))
    (ins_ok (label := "check_XgoTestNameToDir") (by decide) (by decide)) (by decide) (by decide) (by decide)
    h1.1 h1.2 h2 h3 (tag_free hs _) (tag_free hs _) (no_infix (by decide +kernel)) (by decide) (no_infix (by decide +kernel))
  original := by
    show a ++ [] ++ ("func runTests(".toList ++ b ++ "tRunner(t, func(t *T) {".toList ++ c ++ [] ++ ("t.Run(test.Name,".toList ++ d)) = _
    generalize "func runTests(".toList = k1
    generalize "tRunner(t, func(t *T) {".toList = k2
    generalize "t.Run(test.Name,".toList = k3
    simp only [List.append_assoc, List.nil_append]
  undo := ⟨label_ok (by decide), unmarked_of (by decide +kernel), ⟨no_infix (by decide +kernel), fun _ => no_infix (by decide +kernel)⟩,
    label_ok (by decide), unmarked_of (by decide +kernel), ⟨no_infix (by decide +kernel), fun _ => no_infix (by decide +kernel)⟩, trivial⟩
  changed := changed_of hs (.inl (begin_ins _ _))

theorem done_sleep (a b : Str) (h1 : NotBefore "func Sleep(d Duration)".toList a)
    (hs : Unmarked (a ++ "func Sleep(d Duration)".toList ++ b)) :
    Done editSleep (a ++ "func Sleep(d Duration)".toList ++ b)
      ⟨[(a, .region "xgo_time_sleep".toList "func Sleep(d Duration)".toList
        "func XgoRealSleep(d Duration);func /*xgo_instrumented*/Sleep(d Duration){ XgoRealSleep(d); }".toList)], b⟩ where
  edit := by
    unfold editSleep
    rw [cut_append (by decide) h1]
    show some _ = some (a ++ (Mark.region _ _ _).text ++ b)
    rw [region_text' _ _ _ (by decide)]
    unfold sleepText
    generalize "func Sleep(d Duration)".toList = k1
    generalize "/*old:".toList = k2
    generalize "*/".toList = k3
    generalize String.toList _ = k4
    simp only [List.append_assoc]
  original := rfl
  undo := ⟨label_ok (by decide), unmarked_of (by decide +kernel), ⟨no_infix (by decide +kernel), fun h => absurd h (by decide)⟩, trivial⟩
  changed := by
    refine changed_of hs (.inl ?_)
    rw [region_text' _ _ _ (by decide)]
    have : "*<begin".toList <:+: bm "xgo_time_sleep" := ⟨"/".toList, " xgo_time_sleep>*/".toList, by decide +kernel⟩
    exact this.trans ((((infix_left.trans infix_left).trans infix_left).trans infix_left).trans infix_left)

theorem done_runtimeSleep (a b : Str) (h1 : NotBefore "//go:linkname timeSleep time.Sleep".toList a)
    (hs : Unmarked (a ++ "//go:linkname timeSleep time.Sleep".toList ++ '\n' :: b)) :
    Done editRuntimeSleep (a ++ "//go:linkname timeSleep time.Sleep".toList ++ '\n' :: b)
      ⟨[(a, .line "xgo_runtime_time_linkname".toList "//go:linkname timeSleep time.Sleep".toList
        "//go:linkname timeSleep time.XgoRealSleep".toList)], '\n' :: b⟩ where
  edit := by
    unfold editRuntimeSleep
    rw [cut_append (by decide) h1]
    show some _ = some (a ++ (Mark.line _ _ _).text ++ '\n' :: b)
    have e : ∀ x : Str, (Mark.line "xgo_runtime_time_linkname".toList "//go:linkname timeSleep time.Sleep".toList x).text =
        "/*<next-line-original xgo_runtime_time_linkname>".toList ++ "//go:linkname timeSleep time.Sleep".toList ++
          "</next-line-original>*/\n".toList ++ x := by
      intro x
      unfold Mark.text
      dsimp only
      rewrite [show "/*<next-line-original xgo_runtime_time_linkname>".toList = "/*<next-line-original ".toList ++
        "xgo_runtime_time_linkname".toList ++ ">".toList by decide, show "</next-line-original>*/\n".toList =
        "</next-line-original>*/".toList ++ ['\n'] by decide]
      generalize "/*<next-line-original ".toList = k1
      generalize "xgo_runtime_time_linkname".toList = k2
      generalize ">".toList = k3
      generalize "</next-line-original>*/".toList = k4
      generalize "//go:linkname timeSleep time.Sleep".toList = k5
      simp only [List.append_assoc, List.cons_append, List.nil_append]
    rw [e]
    generalize "/*<next-line-original xgo_runtime_time_linkname>".toList = k1
    generalize "//go:linkname timeSleep time.Sleep".toList = k2
    generalize "</next-line-original>*/\n".toList = k3
    generalize "//go:linkname timeSleep time.XgoRealSleep".toList = k4
    simp only [List.append_assoc]
  original := rfl
  undo := ⟨label_ok (by decide), unmarked_of (by decide +kernel), ⟨no_infix (by decide +kernel), (by decide), .inr ⟨b, rfl⟩⟩, trivial⟩
  changed := by
    refine changed_of hs (.inr ?_)
    exact ⟨"/".toList, "xgo_runtime_time_linkname>//go:linkname timeSleep time.Sleep</next-line-original>*/\n//go:linkname timeSleep time.XgoRealSleep".toList,
      by decide +kernel⟩

theorem replaceAll_once {k k' r : Str} (hk : k ≠ []) (h : ¬ k <:+: r) : replaceAll k k' (k ++ r) = k' ++ r := by
  have hc : cut k (k ++ r) = some ([], r) := by
    have hb : NotBefore k [] := by
      unfold NotBefore
      intro hi
      have h1 := hi.length_le
      have h2 : 0 < k.length := List.length_pos_iff.2 hk
      simp at h1
      omega
    have := cut_append (b := r) hk hb
    simpa using this
  have hr : replaceAll k k' r = r := by
    rw [replaceAll]
    split
    · rfl
    · rename_i heq
      rw [cut_none.2 h] at heq
      cases heq
  rw [replaceAll]
  split
  · rename_i heq
    rw [hc] at heq
    cases heq
  · rename_i a b heq
    rw [hc] at heq
    injection heq with heq
    injection heq with h1 h2
    subst h1 h2
    rw [dif_neg hk, hr, List.nil_append]

theorem trimSuffix_nl (s : Str) : trimSuffix ['\n'] (s ++ ['\n']) = s := by
  unfold trimSuffix
  rw [if_pos (List.isSuffixOf_iff_suffix.2 (List.suffix_append s ['\n']))]
  have : (s ++ ['\n']).length - ['\n'].length = s.length := by simp
  rw [this, List.take_left]

theorem done_now (a b c : Str) (h1 : NotBefore "func Now() Time {".toList a) (h2 : NotBefore "\n}\n".toList b)
    (h3 : ¬ "func Now() Time {".toList <:+: b ++ "\n}\n".toList) (h4 : ¬ "/*old:".toList <:+: b) (hc : c = [] ∨ ∃ c', c = c' ++ ['\n'])
    (hs : Unmarked (a ++ "func Now() Time {".toList ++ b ++ "\n}\n".toList ++ c)) :
    Done editTimeNow (a ++ "func Now() Time {".toList ++ b ++ "\n}\n".toList ++ c)
      ⟨[(a ++ "func Now() Time {".toList ++ b ++ "\n}\n".toList ++ c,
        ins "add_xgo_real_time_now" ("func XgoRealNow() Time {".toList ++ b ++ "\n}".toList))], []⟩ where
  edit := by
    unfold editTimeNow
    have e1 : a ++ "func Now() Time {".toList ++ b ++ "\n}\n".toList ++ c =
        a ++ "func Now() Time {".toList ++ (b ++ "\n}\n".toList ++ c) := by
      generalize "func Now() Time {".toList = k1
      generalize "\n}\n".toList = k2
      simp only [List.append_assoc]
    have e2 : cut "func Now() Time {".toList (a ++ "func Now() Time {".toList ++ b ++ "\n}\n".toList ++ c) =
        some (a, b ++ "\n}\n".toList ++ c) := by
      rw [e1]; exact cut_append (by decide) h1
    have e3 : cut "\n}\n".toList (b ++ "\n}\n".toList ++ c) = some (b, c) := cut_append (by decide) h2
    have e4 : trimSuffix "\n".toList (replaceAll "func Now() Time {".toList "func XgoRealNow() Time {".toList
        ("func Now() Time {".toList ++ b ++ "\n}\n".toList)) = "func XgoRealNow() Time {".toList ++ b ++ "\n}".toList := by
      rw [List.append_assoc, replaceAll_once (by decide) h3]
      have : "func XgoRealNow() Time {".toList ++ (b ++ "\n}\n".toList) = ("func XgoRealNow() Time {".toList ++ b ++ "\n}".toList) ++ ['\n'] := by
        rewrite [show "\n}\n".toList = "\n}".toList ++ ['\n'] by decide]
        generalize "func XgoRealNow() Time {".toList = k1
        generalize "\n}".toList = k2
        simp only [List.append_assoc]
      rw [this]
      exact trimSuffix_nl _
    have e5 : "\n".toList.isSuffixOf (a ++ "func Now() Time {".toList ++ b ++ "\n}\n".toList ++ c) = true := by
      rw [List.isSuffixOf_iff_suffix]
      rcases hc with rfl | ⟨c', rfl⟩
      · rw [List.append_nil]
        exact List.IsSuffix.trans ⟨"\n}".toList, by decide⟩ (List.suffix_append _ "\n}\n".toList)
      · exact List.IsSuffix.trans (List.suffix_append c' ['\n']) (List.suffix_append _ _)
    rw [e2]
    dsimp only
    rw [e3]
    dsimp only
    rw [e4, e5, if_pos rfl]
    show some _ = some (_ ++ (ins _ _).text ++ [])
    rw [ins_text, List.append_nil]
  original := by
    show a ++ "func Now() Time {".toList ++ b ++ "\n}\n".toList ++ c ++ [] ++ [] = _
    rw [List.append_nil, List.append_nil]
  undo := by
    have hb : ∀ w : Str, ¬ w <:+: a ++ "func Now() Time {".toList ++ b ++ "\n}\n".toList ++ c → ¬ w <:+: b := fun w h => not_infix_sub h
      ⟨a ++ "func Now() Time {".toList, "\n}\n".toList ++ c, by
        generalize "func Now() Time {".toList = k1
        generalize "\n}\n".toList = k2
        simp only [List.append_assoc]⟩
    have key : ∀ (d : Char) (w : Str), d ∉ "func XgoRealNow() Time {".toList → '\n' ∉ d :: w → d ≠ '}' → ¬ (d :: w) <:+: b →
        ¬ (d :: w) <:+: "func XgoRealNow() Time {".toList ++ b ++ "\n}".toList := by
      intro d w hd hw hd' hb
      rw [List.append_assoc]
      refine free_skip hd ?_
      show ¬ d :: w <:+: b ++ '\n' :: ['}']
      refine free_last hw hb fun hi => ?_
      have : d = '}' := by
        have := hi.subset (List.mem_cons_self ..)
        simpa using this
      exact hd' this
    refine ⟨label_ok (by decide), ⟨?_, ?_, ?_⟩, ⟨no_infix (by decide +kernel), fun _ => ?_⟩, trivial⟩
    · exact key '*' "<begin".toList (by decide) (by decide) (by decide) (hb _ hs.1)
    · exact key '*' "<end".toList (by decide) (by decide) (by decide) (hb _ hs.2.1)
    · exact key '*' "<next-line-original ".toList (by decide) (by decide) (by decide) (hb _ hs.2.2)
    · exact key '/' "*old:".toList (by decide) (by decide) (by decide) h4
  changed := changed_of hs (.inl (begin_ins _ _))

end Verif.Instrument.GoHooks
