/-
C102: the edits of proc.go.
-/
import Verif.Instrument.GoHooksFiles

namespace Verif.Instrument.GoHooks
open Verif.Text Verif.Instrument.PatchText Verif.Instrument.PatchText.Spec Spec

/-- proc.go, with its anchors. -/
def procOf (decl call : String) (m0 m1 m2 m3 m4 m5 b c n1 n2 n r1 r2 r3 : Str) : ProcText where
  kMain := "func main() {".toList
  kDo := "doInit(".toList
  kInit := "runtime_inittask".toList
  kParen := ")".toList
  kClose := "close(main_init_done)".toList
  kExit := "func goexit1() {".toList
  kDecl := decl.toList
  kSys := "systemstack(func() {".toList
  kCall := call.toList
  kNl := "\n".toList
  kEnd := "})".toList
  kBrace := "}".toList
  kNew1 := "func newproc1(".toList
  kRace := "if raceenabled {".toList
  kStart := "racegostart(".toList
  m0 := m0
  m1 := m1
  m2 := m2
  m3 := m3
  m4 := m4
  m5 := m5
  b := b
  c := c
  n1 := n1
  n2 := n2
  n := n
  r1 := r1
  r2 := r2
  r3 := r3

theorem containsInFunc_of {content u k r fn needle : Str} (hk : k ≠ []) (hc : content = u ++ k ++ r) (hu : NotBefore k u) (hf : UpToFunc fn r) :
    containsInFunc content k needle = contains (k ++ fn) needle := by
  unfold containsInFunc
  rw [hc, cut_append hk hu]
  dsimp only
  rcases hf with ⟨rfl, hn⟩ | ⟨hn, b, rfl⟩
  · rw [cut_none.2 hn]
  · rw [cut_append (by decide) hn]

/-- The marks of proc.go. -/
def markCurg : Str := (ins "declare_xgo_curg" "__xgo_curg := gp.m.curg;var __xgo_newg *g;".toList).text
def markCreate (race : Race) : Str := (ins "add_go_newproc_callback_v2" (createText race.text)).text
def markRace : Str := (Mark.region "xgo_proc_defer_racegostart".toList "if raceenabled {".toList
  "if false { // xgo: race setup moved after create callback (#341)".toList).text
def markExit : Str := (ins "add_go_exit1_callback" ";__xgo_callback_on_exit_g()".toList).text
def markInit : Str := (ins "set_init_finished_mark" "__xgo_callback_on_init_finished();".toList).text

theorem raceSetup_of {content u r fn : Str} {race : Race} (hc : content = u ++ "func newproc1(".toList ++ r)
    (hu : NotBefore "func newproc1(".toList u) (hf : UpToFunc fn r) (hr : race.In fn) : raceSetup content = race.text := by
  have h1 : containsInFunc content "func newproc1(".toList "newg.raceignore".toList = race.ignore := by
    rw [containsInFunc_of (by decide) hc hu hf, Bool.eq_iff_iff, contains_iff]
    exact hr.1.symm
  have h2 : containsInFunc content "func newproc1(".toList "racereleasemergeg(newg".toList = race.labels := by
    rw [containsInFunc_of (by decide) hc hu hf, Bool.eq_iff_iff, contains_iff]
    exact hr.2.symm
  unfold raceSetup Race.text
  rw [h1, h2]

theorem decl_anchor {major minor : Nat} {decl call : String} (h : Decl major minor decl call) : procAnchor major minor = (decl, call) := by
  cases h with
  | go17 h => unfold procAnchor; rw [if_pos ⟨rfl, h⟩]
  | go22 h h' => unfold procAnchor; rw [if_neg (by omega), if_pos ⟨rfl, h'⟩]
  | go23 h => unfold procAnchor; rw [if_neg (by omega), if_neg (by omega)]

theorem decl_ne {major minor : Nat} {decl call : String} (h : Decl major minor decl call) : decl.toList ≠ [] ∧ call.toList ≠ [] := by
  cases h <;> exact ⟨by decide, by decide⟩

theorem create_ne (race : Race) : createText race.text ≠ [] := by
  unfold createText
  exact List.append_ne_nil_of_left_ne_nil (by decide +kernel) _

theorem create_free (race : Race) (w : Str) (h : ∀ i l : Bool, (cut w (markCreate ⟨i, l⟩)).isNone = true) : ¬ w <:+: markCreate race :=
  no_infix (h race.ignore race.labels)

theorem create_undo (race : Race) : Unmarked (createText race.text) ∧ ¬ "/*old:".toList <:+: createText race.text := by
  obtain ⟨i, l⟩ := race
  cases i <;> cases l <;> exact ⟨unmarked_of (by decide +kernel), no_infix (by decide +kernel)⟩

theorem done_proc {major minor : Nat} {decl call : String} {m0 m1 m2 m3 m4 m5 b c n1 n2 n r1 r2 r3 : Str} {race : Race} {fn : Str}
    (hd : Decl major minor decl call) (h : (procOf decl call m0 m1 m2 m3 m4 m5 b c n1 n2 n r1 r2 r3).Ok)
    (hfn : UpToFunc fn (procOf decl call m0 m1 m2 m3 m4 m5 b c n1 n2 n r1 r2 r3).E) (hr : race.In fn)
    (hs : Unmarked (procOf decl call m0 m1 m2 m3 m4 m5 b c n1 n2 n r1 r2 r3).orig) :
    editProc major minor (procOf decl call m0 m1 m2 m3 m4 m5 b c n1 n2 n r1 r2 r3).orig =
      some ((procOf decl call m0 m1 m2 m3 m4 m5 b c n1 n2 n r1 r2 r3).s5 markCurg (markCreate race) markRace markExit markInit) := by
  generalize hp : procOf decl call m0 m1 m2 m3 m4 m5 b c n1 n2 n r1 r2 r3 = p at *
  have kd : p.kDecl = decl.toList := by rw [← hp]; rfl
  have kc : p.kCall = call.toList := by rw [← hp]; rfl
  have kM : p.kMain = "func main() {".toList := by rw [← hp]; rfl
  have kX : p.kExit = "func goexit1() {".toList := by rw [← hp]; rfl
  have kS : p.kSys = "systemstack(func() {".toList := by rw [← hp]; rfl
  have kN : p.kNew1 = "func newproc1(".toList := by rw [← hp]; rfl
  have kR : p.kRace = "if raceenabled {".toList := by rw [← hp]; rfl
  have i1 : Ins (bm "declare_xgo_curg") (em "declare_xgo_curg") "__xgo_curg := gp.m.curg;var __xgo_newg *g;".toList (tagOf "declare_xgo_curg")
    markCurg := ins_ok (by decide) (by decide)
  have i2 : Ins (bm "add_go_newproc_callback_v2") (em "add_go_newproc_callback_v2") (createText race.text) (tagOf "add_go_newproc_callback_v2")
    (markCreate race) := ins_ok (by decide) (create_ne race)
  have i4 : Ins (bm "add_go_exit1_callback") (em "add_go_exit1_callback") ";__xgo_callback_on_exit_g()".toList (tagOf "add_go_exit1_callback")
    markExit := ins_ok (by decide) (by decide)
  have i5 : Ins (bm "set_init_finished_mark") (em "set_init_finished_mark") "__xgo_callback_on_init_finished();".toList
    (tagOf "set_init_finished_mark") markInit := ins_ok (by decide) (by decide)
  have s3 : Slashed markRace := slashed_region _ _ _
  have w1 : ¬ p.kSys <:+: markCurg := by rw [kS]; exact no_infix (by decide +kernel)
  -- the first edit
  have e1 := ProcText.edit1 h i1 (tag_free hs _)
  have e2 := ProcText.edit2 h i1 i2 (tag_free hs _) (by rw [kS]; decide) w1 (no_infix (by decide +kernel))
  have n1' : ¬ p.kNew1 <:+: markCurg := by rw [kN]; exact no_infix (by decide +kernel)
  have n2' : ¬ p.kNew1 <:+: markCreate race := by rw [kN]; exact create_free race _ (by decide +kernel)
  have e3 := ProcText.edit3 (b3 := bm "xgo_proc_defer_racegostart") (e3 := em "xgo_proc_defer_racegostart")
    (t3 := "if false { // xgo: race setup moved after create callback (#341)".toList) (g3 := tagOf "xgo_proc_defer_racegostart")
    (M3 := markRace) h i1.slashed i2.slashed (bm_ne _) (em_ne _) (by decide +kernel) (tag_bm _) (slash_tag (by decide)) rfl rfl
    (by rw [kR]; exact region_text' _ _ _ (by decide)) (tag_free hs _) (no_infix (by decide +kernel)) (create_free race _ (by decide +kernel))
    (by rw [kN]; decide) n1' n2'
  have e4 := ProcText.edit4 h i1.slashed i2.slashed s3 i4 (tag_free hs _) (no_infix (by decide +kernel)) (create_free race _ (by decide +kernel))
    (no_infix (by decide +kernel)) (by rw [kX]; decide) (by rw [kX]; exact no_infix (by decide +kernel))
    (by rw [kX]; exact create_free race _ (by decide +kernel)) (by rw [kX]; exact no_infix (by decide +kernel))
  have e5 := ProcText.edit5 h i1.slashed i2.slashed s3 i4.slashed i5 (tag_free hs _) (no_infix (by decide +kernel))
    (create_free race _ (by decide +kernel)) (no_infix (by decide +kernel)) (no_infix (by decide +kernel)) (by rw [kM]; decide)
    (by rw [kM]; exact no_infix (by decide +kernel)) (by rw [kM]; exact create_free race _ (by decide +kernel))
    (by rw [kM]; exact no_infix (by decide +kernel)) (by rw [kM]; exact no_infix (by decide +kernel))
  -- the race setup is that of newproc1
  have hset : raceSetup (p.s1 markCurg) = race.text := by
    refine raceSetup_of (u := p.head ++ p.kDecl ++ p.n1 ++ markCurg ++ (p.kSys ++ p.n2 ++ p.kCall ++ p.n)) (r := p.E) ?_ ?_ hfn hr
    · rw [← kN]; simp only [ProcText.s1, List.append_assoc]
    · have hh := h.new1
      have ee : p.A ++ p.kClose ++ p.b ++ p.kExit ++ p.c ++ p.kDecl ++ p.n1 ++ p.kSys ++ p.n2 ++ p.kCall ++ p.n =
        (p.head ++ p.kDecl ++ p.n1) ++ (p.kSys ++ p.n2 ++ p.kCall ++ p.n) := by simp only [ProcText.head, List.append_assoc]
      rw [ee] at hh
      rw [← kN]
      exact notBefore_ins (by rw [kN]; decide) i1.slashed n1' hh
  have q : (newprocSeq major minor).map String.toList = [p.kDecl, p.kSys, p.kCall, p.kNl, p.kEnd, p.kBrace] := by
    unfold newprocSeq
    rw [decl_anchor hd, ← hp]
    rfl
  have f1 : upd "declare_xgo_curg" (newprocSeq major minor) 1 .before "__xgo_curg := gp.m.curg;var __xgo_newg *g;".toList p.orig =
      some (p.s1 markCurg) := by unfold upd; rw [q]; exact e1
  have f2 : upd "add_go_newproc_callback_v2" (newprocSeq major minor) 2 .after (createText race.text) (p.s1 markCurg) =
      some (p.s2 markCurg (markCreate race)) := by unfold upd; rw [q]; exact e2
  have f3 : upd "xgo_proc_defer_racegostart" ["func newproc1(", "if raceenabled {", "racegostart("] 1 .replace
      "if false { // xgo: race setup moved after create callback (#341)".toList (p.s2 markCurg (markCreate race)) =
      some (p.s3 markCurg (markCreate race) markRace) := by
    have kZ : p.kStart = "racegostart(".toList := by rw [← hp]; rfl
    rw [kN, kR, kZ] at e3
    exact e3
  have f4 : editGoexit (p.s3 markCurg (markCreate race) markRace) = some (p.s4 markCurg (markCreate race) markRace markExit) := by
    have kL : p.kNl = "\n".toList := by rw [← hp]; rfl
    rw [kX, kL] at e4
    exact e4
  have f5 : editInit (p.s4 markCurg (markCreate race) markRace markExit) =
      some (p.s5 markCurg (markCreate race) markRace markExit markInit) := by
    have k1 : p.kDo = "doInit(".toList := by rw [← hp]; rfl
    have k2 : p.kInit = "runtime_inittask".toList := by rw [← hp]; rfl
    have k3 : p.kParen = ")".toList := by rw [← hp]; rfl
    have k4 : p.kClose = "close(main_init_done)".toList := by rw [← hp]; rfl
    have kL : p.kNl = "\n".toList := by rw [← hp]; rfl
    rw [kM, k1, k2, k3, k4, kL] at e5
    exact e5
  have f0 : editNewproc major minor p.orig = some (p.s3 markCurg (markCreate race) markRace) := by
    unfold editNewproc
    rw [f1, Option.bind_some, hset, f2, Option.bind_some, f3]
  unfold editProc
  rw [f0, Option.bind_some, f4, Option.bind_some, f5]

/-- Every file. -/
theorem done {major minor : Nat} {f : File} {s : Str} {g : Patched} (h : Hooked major minor f s g) (hs : Unmarked s) :
    Done (editOf major minor f) s g := by
  cases h with
  | runtime2 a b c h1 h2 => exact done_runtime2 a b c h1 h2 hs
  | timeNow a b c h1 h2 h3 h4 h5 => exact done_now a b c h1 h2 h3 h4 h5 hs
  | timeSleep a b h1 => exact done_sleep a b h1 hs
  | runtimeTime a b h1 => exact done_runtimeSleep a b h1 hs
  | json a b c d h1 h2 h3 h4 h5 => exact done_json a b c d h1 h2 h3 h4 h5 hs
  | testing a b c d h1 h2 h3 => exact done_testing a b c d h1 h2 h3 hs
  | proc decl call m0 m1 m2 m3 m4 m5 b c n1 n2 n r1 r2 r3 race fn A B C D E hd eA eE eD eC eB hm h1 h2 h3 h4 h5 h6 hx h7 hdc h8 h9 ht hn h10
      h11 hfn hr =>
    subst eA eB eC eD eE
    have ok : (procOf decl call m0 m1 m2 m3 m4 m5 b c n1 n2 n r1 r2 r3).Ok :=
      { main := hm.1, main' := hm.2, do1 := h1, init := h2, paren := h3, do2 := h4, close := h5, nl1 := h6, exit := hx.1, exit' := hx.2,
        nl2 := h7, decl := hdc.1, decl' := hdc.2, sys := h8, call := h9, tail := ht, new1 := hn.1, new1' := hn.2, race := h10, start := h11,
        nonempty := ⟨by show "func main() {".toList ≠ []; decide, by show "doInit(".toList ≠ []; decide,
          by show "runtime_inittask".toList ≠ []; decide, by show ")".toList ≠ []; decide, by show "close(main_init_done)".toList ≠ []; decide,
          by show "func goexit1() {".toList ≠ []; decide, (decl_ne hd).1, by show "systemstack(func() {".toList ≠ []; decide, (decl_ne hd).2,
          by show "})".toList ≠ []; decide, by show "}".toList ≠ []; decide, by show "func newproc1(".toList ≠ []; decide,
          by show "if raceenabled {".toList ≠ []; decide, by show "racegostart(".toList ≠ []; decide⟩,
        nl := rfl }
    have key := done_proc hd ok hfn hr hs
    refine ⟨?_, ?_, ?_, changed_of hs (.inl (begin_ins _ _))⟩
    · refine key.trans (congrArg some ?_)
      show ProcText.s5 _ _ _ _ _ _ = _
      unfold ProcText.s5 ProcText.tl markCurg markCreate markRace markExit markInit createText
      unfold ProcText.A procOf
      simp only [Patched.text, Spec.text]
      generalize Mark.text _ = M1
      generalize Mark.text _ = M2
      generalize Mark.text _ = M3
      generalize Mark.text _ = M4
      generalize Mark.text _ = M5
      generalize "doInit(".toList = k1
      generalize "runtime_inittask".toList = k2
      generalize ")".toList = k3
      generalize "close(main_init_done)".toList = k4
      generalize "func goexit1() {".toList = k5
      generalize decl.toList = k6
      generalize "systemstack(func() {".toList = k7
      generalize call.toList = k8
      generalize "func newproc1(".toList = k9
      generalize "racegostart(".toList = k10
      generalize "func main() {".toList = k11
      simp only [List.append_assoc]
    · simp only [Patched.original, Spec.original, ins, Mark.old]
      generalize "doInit(".toList = k1
      generalize "runtime_inittask".toList = k2
      generalize ")".toList = k3
      generalize "close(main_init_done)".toList = k4
      generalize "func goexit1() {".toList = k5
      generalize decl.toList = k6
      generalize "systemstack(func() {".toList = k7
      generalize call.toList = k8
      generalize "func newproc1(".toList = k9
      generalize "racegostart(".toList = k10
      generalize "func main() {".toList = k11
      generalize "if raceenabled {".toList = k12
      simp only [List.append_assoc, List.nil_append]
    · exact ⟨label_ok (by decide), unmarked_of (by decide +kernel), ⟨no_infix (by decide +kernel), fun _ => no_infix (by decide +kernel)⟩,
        label_ok (by decide), unmarked_of (by decide +kernel), ⟨no_infix (by decide +kernel), fun _ => no_infix (by decide +kernel)⟩,
        label_ok (by decide), unmarked_of (by decide +kernel), ⟨no_infix (by decide +kernel), fun _ => no_infix (by decide +kernel)⟩,
        label_ok (by decide), (create_undo race).1, ⟨no_infix (by decide +kernel), fun _ => (create_undo race).2⟩,
        label_ok (by decide), unmarked_of (by decide +kernel), ⟨no_infix (by decide +kernel), fun h => absurd h (by decide)⟩, trivial⟩

end Verif.Instrument.GoHooks
