/-
C102: each edit puts the hooks where `Hooked` says.
-/
import Verif.Instrument.GoHooksSpec
import Verif.Instrument.GoHooksProc

namespace Verif.Instrument.GoHooks
open Verif.Text Verif.Instrument.PatchText Verif.Instrument.PatchText.Spec Spec

/-! ### Marks -/

def tagOf (label : String) : Str := "*<begin ".toList ++ label.toList ++ ">".toList

theorem ins_text (label : String) (t : Str) : (ins label t).text = bm label ++ t ++ em label := by
  unfold ins Mark.text body bm em
  dsimp only
  rw [if_pos rfl, List.nil_append]
  generalize "/*<end ".toList = x3
  generalize "/*<begin ".toList = x4
  generalize ">*/".toList = x5
  simp only [List.append_assoc]

theorem region_text' (label : String) (o t : Str) (ho : o ≠ []) :
    (Mark.region label.toList o t).text = bm label ++ "/*old:".toList ++ o ++ "*/".toList ++ t ++ em label := by
  unfold Mark.text body bm em
  dsimp only
  rw [if_neg ho]
  generalize "/*old:".toList = x1
  generalize "*/".toList = x2
  generalize "/*<end ".toList = x3
  generalize "/*<begin ".toList = x4
  generalize ">*/".toList = x5
  simp only [List.append_assoc]

theorem tag_bm (label : String) : tagOf label <:+: bm label := by
  refine ⟨['/'], "*/".toList, ?_⟩
  unfold tagOf bm
  rewrite [show "/*<begin ".toList = '/' :: "*<begin ".toList by decide, show ">*/".toList = ">".toList ++ "*/".toList by decide]
  generalize "*<begin ".toList = x1
  generalize "*/".toList = x2
  generalize ">".toList = x3
  simp only [List.append_assoc, List.cons_append, List.nil_append]

theorem slash_tag {label : String} (h : '/' ∉ label.toList) : '/' ∉ tagOf label := by
  unfold tagOf
  rw [List.mem_append, List.mem_append]
  rintro ((h1 | h1) | h1)
  · exact absurd h1 (by decide)
  · exact h h1
  · exact absurd h1 (by decide)

theorem bm_ne (label : String) : bm label ≠ [] := by
  unfold bm
  rewrite [show "/*<begin ".toList = '/' :: "*<begin ".toList by decide]
  simp

theorem em_ne (label : String) : em label ≠ [] := by
  unfold em
  rewrite [show "/*<end ".toList = '/' :: "*<end ".toList by decide]
  simp

theorem slashed_region (label o t : Str) : Slashed (Mark.region label o t).text := by
  obtain ⟨z, hz⟩ := region_ends label o t
  exact ⟨z, hz⟩

theorem ins_ok {label : String} {t : Str} (h : '/' ∉ label.toList) (ht : t ≠ []) :
    Ins (bm label) (em label) t (tagOf label) (ins label t).text where
  nb := bm_ne label
  ne := em_ne label
  nt := ht
  isTag := tag_bm label
  slash := slash_tag h
  text := ins_text label t
  slashed := slashed_region _ _ _

theorem tag_free {s : Str} (h : Unmarked s) (label : String) : ¬ tagOf label <:+: s := by
  unfold tagOf
  rewrite [show "*<begin ".toList = "*<begin".toList ++ [' '] by decide, List.append_assoc, List.append_assoc]
  exact not_infix_of_append h.1

/-! ### Two edits, for any anchors -/

theorem edit_runtime2 {b e t g M k1 k2 x y z : Str} (hi : Ins b e t g M) (h1 : k1 ≠ []) (h2 : k2 ≠ []) (hx : NotBefore k1 x)
    (hr : ¬ k1 <:+: y ++ k2 ++ z) (hy : NotBefore k2 y) (hf : ¬ g <:+: x ++ k1 ++ y ++ k2 ++ z) :
    updateContent (x ++ k1 ++ y ++ k2 ++ z) b e [k1, k2] 1 .before t = some (x ++ k1 ++ y ++ M ++ (k2 ++ z)) := by
  have ha : Anchored (x ++ k1 ++ y ++ k2 ++ z) [k1, k2] ([(x, k1)] ++ (y, k2) :: []) z := by
    refine ⟨by simp only [joined, List.cons_append, List.nil_append, List.append_assoc], rfl, by simp, ?_⟩
    intro q hq
    simp only [List.cons_append, List.nil_append, List.mem_cons, List.not_mem_nil, or_false] at hq
    rcases hq with rfl | rfl
    · exact ⟨h1, hx⟩
    · exact ⟨h2, hy⟩
  have := hi.before ha (not_infix_sub hr infix_right) hf
  rw [show ((1 : Int)) = (([(x, k1)] : List (Str × Str)).length : Int) from rfl, this]
  simp only [joined, List.append_assoc]

theorem edit_json {b e t g M b' e' t' g' M' k1 k2 k3 nl x y c d : Str} (hi : Ins b e t g M) (hi' : Ins b' e' t' g' M') (h1 : k1 ≠ [])
    (h2 : k2 ≠ []) (h3 : k3 ≠ []) (hnl : nl = ['\n']) (hx : NotBefore k1 x) (hr : ¬ k1 <:+: y ++ k2 ++ c ++ k3 ++ d) (hy : '\n' ∈ y)
    (hx' : NotBefore k2 (x ++ k1 ++ y)) (hr' : ¬ k2 <:+: c ++ k3 ++ d) (hc : NotBefore k3 c) (hd : '\n' ∈ d)
    (hf : ¬ g <:+: x ++ k1 ++ y ++ k2 ++ c ++ k3 ++ d) (hf' : ¬ g' <:+: x ++ k1 ++ y ++ k2 ++ c ++ k3 ++ d) (hg : ¬ g' <:+: M)
    (hs : '/' ∉ k2) (hk : ¬ k2 <:+: M) :
    (updateContent (x ++ k1 ++ y ++ k2 ++ c ++ k3 ++ d) b e [k1, nl] 0 .after t).bind
      (fun s => updateContent s b' e' [k2, k3, nl] 1 .after t') =
      some (x ++ k1 ++ M ++ (y ++ k2 ++ c ++ k3 ++ M' ++ d)) := by
  obtain ⟨y1, y2, hy, hy1⟩ := nl_split hy
  obtain ⟨d1, d2, hd, hd1⟩ := nl_split hd
  have ha : Anchored (x ++ k1 ++ y ++ k2 ++ c ++ k3 ++ d) [k1, nl] ([] ++ (x, k1) :: [(y1, nl)]) (y2 ++ k2 ++ c ++ k3 ++ d) := by
    refine ⟨by simp only [joined, hy, hnl, List.nil_append, List.append_assoc], rfl, by simp, ?_⟩
    intro q hq
    simp only [List.nil_append, List.mem_cons, List.not_mem_nil, or_false] at hq
    rcases hq with rfl | rfl
    · exact ⟨h1, hx⟩
    · exact ⟨by rw [hnl]; simp, by rw [hnl]; exact hy1⟩
  have hu := hi.after ha (not_infix_sub hr ⟨y1 ++ ['\n'], [], by simp only [hy, List.append_assoc, List.append_nil]⟩) hf
  rw [show ((0 : Int)) = (([] : List (Str × Str)).length : Int) from rfl, hu, Option.bind_some]
  have e1 : joined [] x ++ k1 ++ M ++ joined [(y1, nl)] (y2 ++ k2 ++ c ++ k3 ++ d) = x ++ k1 ++ M ++ (y ++ k2 ++ c ++ k3 ++ d) := by
    simp only [joined, hy, hnl, List.append_assoc]
  rw [e1]
  have ha' : Anchored (x ++ k1 ++ M ++ (y ++ k2 ++ c ++ k3 ++ d)) [k2, k3, nl] ([(x ++ k1 ++ M ++ y, k2)] ++ (c, k3) :: [(d1, nl)]) d2 := by
    refine ⟨by simp only [joined, hd, hnl, List.cons_append, List.nil_append, List.append_assoc], rfl, by simp, ?_⟩
    intro q hq
    simp only [List.cons_append, List.nil_append, List.mem_cons, List.not_mem_nil, or_false] at hq
    rcases hq with rfl | rfl | rfl
    · exact ⟨h2, notBefore_ins hs hi.slashed hk hx'⟩
    · exact ⟨h3, hc⟩
    · exact ⟨by rw [hnl]; simp, by rw [hnl]; exact hd1⟩
  have hu' := hi'.after ha' (not_infix_sub hr' ⟨c ++ k3 ++ d1 ++ ['\n'], [], by simp only [hd, List.append_assoc, List.append_nil]⟩)
    (free2 hi'.slash hi.slashed hg (not_infix_sub hf' ⟨[], y ++ k2 ++ c ++ k3 ++ d, by simp only [List.append_assoc, List.nil_append]⟩)
      (not_infix_sub hf' ⟨x ++ k1, [], by simp only [List.append_assoc, List.append_nil]⟩))
  rw [show ((1 : Int)) = (([(x ++ k1 ++ M ++ y, k2)] : List (Str × Str)).length : Int) from rfl, hu']
  simp only [joined, hd, hnl, List.append_assoc]

theorem edit_testing {b e t g M b' e' t' g' M' k1 k2 k3 x y c d : Str} (hi : Ins b e t g M) (hi' : Ins b' e' t' g' M') (h1 : k1 ≠ [])
    (h2 : k2 ≠ []) (h3 : k3 ≠ []) (hx : NotBefore k1 x) (hr : ¬ k1 <:+: y ++ k2 ++ c ++ k3 ++ d) (hy : NotBefore k2 y) (hc : NotBefore k3 c)
    (hf : ¬ g <:+: x ++ k1 ++ y ++ k2 ++ c ++ k3 ++ d) (hf' : ¬ g' <:+: x ++ k1 ++ y ++ k2 ++ c ++ k3 ++ d) (hg : ¬ g' <:+: M)
    (hs : '/' ∉ k1) (hk : ¬ k1 <:+: M) :
    (updateContent (x ++ k1 ++ y ++ k2 ++ c ++ k3 ++ d) b e [k1] 0 .before t).bind
      (fun s => updateContent s b' e' [k1, k2, k3] 2 .before t') =
      some (x ++ M ++ (k1 ++ y ++ k2 ++ c ++ M' ++ (k3 ++ d))) := by
  have ha : Anchored (x ++ k1 ++ y ++ k2 ++ c ++ k3 ++ d) [k1] ([] ++ (x, k1) :: []) (y ++ k2 ++ c ++ k3 ++ d) := by
    refine ⟨by simp only [joined, List.nil_append, List.append_assoc], rfl, by simp, ?_⟩
    intro q hq
    simp only [List.nil_append, List.mem_cons, List.not_mem_nil, or_false] at hq
    rw [hq]
    exact ⟨h1, hx⟩
  have hu := hi.before ha hr hf
  rw [show ((0 : Int)) = (([] : List (Str × Str)).length : Int) from rfl, hu, Option.bind_some]
  have e1 : joined [] x ++ M ++ k1 ++ joined [] (y ++ k2 ++ c ++ k3 ++ d) = x ++ M ++ (k1 ++ y ++ k2 ++ c ++ k3 ++ d) := by
    simp only [joined, List.append_assoc]
  rw [e1]
  have ha' : Anchored (x ++ M ++ (k1 ++ y ++ k2 ++ c ++ k3 ++ d)) [k1, k2, k3] ([(x ++ M, k1), (y, k2)] ++ (c, k3) :: []) d := by
    refine ⟨by simp only [joined, List.cons_append, List.nil_append, List.append_assoc], rfl, by simp, ?_⟩
    intro q hq
    simp only [List.cons_append, List.nil_append, List.mem_cons, List.not_mem_nil, or_false] at hq
    rcases hq with rfl | rfl | rfl
    · refine ⟨h1, ?_⟩
      have := notBefore_ins (x := x) (y := []) hs hi.slashed hk (by simpa using hx)
      simpa using this
    · exact ⟨h2, hy⟩
    · exact ⟨h3, hc⟩
  have hu' := hi'.before ha' (not_infix_sub hr infix_right)
    (free2 hi'.slash hi.slashed hg (not_infix_sub hf' ⟨[], k1 ++ y ++ k2 ++ c ++ k3 ++ d, by simp only [List.append_assoc, List.nil_append]⟩)
      (not_infix_sub hf' ⟨x, [], by simp only [List.append_assoc, List.append_nil]⟩))
  rw [show ((2 : Int)) = (([(x ++ M, k1), (y, k2)] : List (Str × Str)).length : Int) from rfl, hu']
  simp only [joined, List.append_assoc]

/-! ### Each file -/

/-- What is to be shown of each file: the edit gives the hooked text, which can be undone. -/
structure Done (edit : Str → Option Str) (s : Str) (g : Patched) : Prop where
  edit : edit s = some g.text
  original : g.original = s
  undo : Undoable Unmarked LabelOk g.parts g.rest
  changed : g.text ≠ s

theorem label_ok {l : String} (h : (l.toList.contains '*' || l.toList.contains '/' || l.toList.contains '>') = false) : LabelOk l.toList := by
  simp only [Bool.or_eq_false_iff, List.contains_eq_mem, decide_eq_false_iff_not] at h
  exact ⟨h.1.1, h.1.2, h.2⟩

theorem no_infix {w s : Str} (h : (cut w s).isNone = true) : ¬ w <:+: s := cut_none.1 (Option.isNone_iff_eq_none.1 h)

theorem unmarked_of {s : Str} (h : ((cut "*<begin".toList s).isNone && (cut "*<end".toList s).isNone &&
    (cut "*<next-line-original ".toList s).isNone) = true) : Unmarked s := by
  simp only [Bool.and_eq_true] at h
  exact ⟨no_infix h.1.1, no_infix h.1.2, no_infix h.2⟩

theorem changed_of {p s : Str} {m : Mark} {l : List (Str × Mark)} {r : Str} (hs : Unmarked s)
    (hm : "*<begin".toList <:+: m.text ∨ "*<next-line-original ".toList <:+: m.text) : Patched.text ⟨(p, m) :: l, r⟩ ≠ s := by
  intro e
  have h : m.text <:+: s := by
    rw [← e]
    exact ⟨p, Spec.text l r, rfl⟩
  rcases hm with hm | hm
  · exact hs.1 (hm.trans h)
  · exact hs.2.2 (hm.trans h)

theorem begin_ins (label : String) (t : Str) : "*<begin".toList <:+: (ins label t).text := by
  rw [ins_text]
  refine List.IsInfix.trans ?_ (infix_left.trans infix_left)
  refine List.IsInfix.trans ?_ (tag_bm label)
  unfold tagOf
  rewrite [show "*<begin ".toList = "*<begin".toList ++ [' '] by decide, List.append_assoc, List.append_assoc]
  exact infix_left

theorem done_runtime2 (a b c : Str) (h1 : Once "type g struct {" a (b ++ "}\n".toList ++ c)) (h2 : NotBefore "}\n".toList b)
    (hs : Unmarked (a ++ "type g struct {".toList ++ b ++ "}\n".toList ++ c)) :
    Done editRuntime2 (a ++ "type g struct {".toList ++ b ++ "}\n".toList ++ c)
      ⟨[(a ++ "type g struct {".toList ++ b, ins "instrument_runtime2_xgo_g" "__xgo_g __xgo_g;".toList)], "}\n".toList ++ c⟩ where
  edit := edit_runtime2 (ins_ok (label := "instrument_runtime2_xgo_g") (by decide) (by decide)) (by decide) (by decide) h1.1 h1.2 h2
    (tag_free hs _)
  original := by
    show a ++ "type g struct {".toList ++ b ++ [] ++ ("}\n".toList ++ c) = _
    rw [List.append_nil, List.append_assoc _ "}\n".toList c]
  undo := ⟨label_ok (by decide), unmarked_of (by decide +kernel), ⟨no_infix (by decide +kernel), fun _ => no_infix (by decide +kernel)⟩, trivial⟩
  changed := changed_of hs (.inl (begin_ins _ _))

end Verif.Instrument.GoHooks
