/-
C102: the five edits of proc.go, for any anchors and marks.
-/
import Verif.Instrument.GoHooksText

namespace Verif.Instrument.GoHooks
open Verif.Text Verif.Instrument.PatchText Verif.Instrument.PatchText.Spec

/-- The texts between the anchors of proc.go, and the anchors. -/
structure ProcText where
  (kMain kDo kInit kParen kClose kExit kDecl kSys kCall kNl kEnd kBrace kNew1 kRace kStart : Str)
  (m0 m1 m2 m3 m4 m5 b c n1 n2 n r1 r2 r3 : Str)

namespace ProcText
variable (p : ProcText)

def E : Str := p.r1 ++ p.kRace ++ p.r2 ++ p.kStart ++ p.r3
def D : Str := p.n1 ++ p.kSys ++ p.n2 ++ p.kCall ++ p.n ++ p.kNew1 ++ p.E
def C : Str := p.c ++ p.kDecl ++ p.D
def B : Str := p.b ++ p.kExit ++ p.C
def A : Str := p.m0 ++ p.kMain ++ (p.m1 ++ p.kDo ++ (p.m2 ++ p.kInit ++ (p.m3 ++ p.kParen ++ (p.m4 ++ p.kDo ++ p.m5))))
def orig : Str := p.A ++ p.kClose ++ p.B

/-- The anchors are where they should be. -/
structure Ok : Prop where
  main : NotBefore p.kMain p.m0
  main' : ¬ p.kMain <:+: p.B
  do1 : NotBefore p.kDo p.m1
  init : NotBefore p.kInit p.m2
  paren : NotBefore p.kParen p.m3
  do2 : NotBefore p.kDo p.m4
  close : NotBefore p.kClose p.m5
  nl1 : '\n' ∈ p.b
  exit : NotBefore p.kExit (p.A ++ p.kClose ++ p.b)
  exit' : ¬ p.kExit <:+: p.C
  nl2 : '\n' ∈ p.c
  decl : NotBefore p.kDecl (p.A ++ p.kClose ++ p.b ++ p.kExit ++ p.c)
  decl' : ¬ p.kDecl <:+: p.D
  sys : NotBefore p.kSys p.n1
  call : NotBefore p.kCall p.n2
  tail : ∃ x y z w, p.n = x ++ p.kNl ++ (y ++ p.kEnd ++ (z ++ p.kBrace ++ w)) ∧ NotBefore p.kNl x ∧ NotBefore p.kEnd y ∧ NotBefore p.kBrace z
  new1 : NotBefore p.kNew1 (p.A ++ p.kClose ++ p.b ++ p.kExit ++ p.c ++ p.kDecl ++ p.n1 ++ p.kSys ++ p.n2 ++ p.kCall ++ p.n)
  new1' : ¬ p.kNew1 <:+: p.E
  race : NotBefore p.kRace p.r1
  start : NotBefore p.kStart p.r2
  nonempty : p.kMain ≠ [] ∧ p.kDo ≠ [] ∧ p.kInit ≠ [] ∧ p.kParen ≠ [] ∧ p.kClose ≠ [] ∧ p.kExit ≠ [] ∧ p.kDecl ≠ [] ∧ p.kSys ≠ [] ∧
    p.kCall ≠ [] ∧ p.kEnd ≠ [] ∧ p.kBrace ≠ [] ∧ p.kNew1 ≠ [] ∧ p.kRace ≠ [] ∧ p.kStart ≠ []
  nl : p.kNl = ['\n']

def head : Str := p.A ++ p.kClose ++ p.b ++ p.kExit ++ p.c

/-- The file after the first edit, and so on. -/
def s1 (M1 : Str) : Str := p.head ++ p.kDecl ++ p.n1 ++ M1 ++ (p.kSys ++ p.n2 ++ p.kCall ++ p.n ++ p.kNew1 ++ p.E)
def s2 (M1 M2 : Str) : Str := p.head ++ p.kDecl ++ p.n1 ++ M1 ++ (p.kSys ++ p.n2 ++ p.kCall ++ M2 ++ (p.n ++ p.kNew1 ++ p.E))
def tl (M1 M2 M3 : Str) : Str :=
  p.kDecl ++ p.n1 ++ M1 ++ (p.kSys ++ p.n2 ++ p.kCall ++ M2 ++ (p.n ++ p.kNew1 ++ p.r1 ++ M3 ++ (p.r2 ++ p.kStart ++ p.r3)))
def s3 (M1 M2 M3 : Str) : Str := p.head ++ p.tl M1 M2 M3
def s4 (M1 M2 M3 M4 : Str) : Str := p.A ++ p.kClose ++ p.b ++ p.kExit ++ M4 ++ (p.c ++ p.tl M1 M2 M3)
def s5 (M1 M2 M3 M4 M5 : Str) : Str := p.A ++ M5 ++ (p.kClose ++ p.b ++ p.kExit ++ M4 ++ (p.c ++ p.tl M1 M2 M3))

variable {p} (h : p.Ok) {b1 e1 t1 g1 M1 b2 e2 t2 g2 M2 b3 e3 t3 g3 M3 b4 e4 t4 g4 M4 b5 e5 t5 g5 M5 : Str}
include h

theorem edit1 (hi : Ins b1 e1 t1 g1 M1) (hf : ¬ g1 <:+: p.orig) :
    updateContent p.orig b1 e1 [p.kDecl, p.kSys, p.kCall, p.kNl, p.kEnd, p.kBrace] 1 .before t1 = some (p.s1 M1) := by
  obtain ⟨x, y, z, w, hn, hx, hy, hz⟩ := h.tail
  obtain ⟨-, -, -, -, -, -, h7, h8, h9, h10, h11, h12, h13, h14⟩ := h.nonempty
  have ha : Anchored p.orig [p.kDecl, p.kSys, p.kCall, p.kNl, p.kEnd, p.kBrace]
      ([(p.head, p.kDecl)] ++ (p.n1, p.kSys) :: [(p.n2, p.kCall), (x, p.kNl), (y, p.kEnd), (z, p.kBrace)]) (w ++ p.kNew1 ++ p.E) := by
    refine ⟨?_, rfl, by simp, ?_⟩
    · simp only [orig, B, C, D, hn, head, joined, List.cons_append, List.nil_append, List.append_assoc]
    · intro q hq
      simp only [List.cons_append, List.nil_append, List.mem_cons, List.not_mem_nil, or_false] at hq
      rcases hq with rfl | rfl | rfl | rfl | rfl | rfl
      · exact ⟨h7, h.decl⟩
      · exact ⟨h8, h.sys⟩
      · exact ⟨h9, h.call⟩
      · exact ⟨by rw [h.nl]; simp, hx⟩
      · exact ⟨h10, hy⟩
      · exact ⟨h11, hz⟩
  have hr : ¬ p.kDecl <:+: w ++ p.kNew1 ++ p.E := not_infix_sub h.decl'
    ⟨p.n1 ++ p.kSys ++ p.n2 ++ p.kCall ++ x ++ p.kNl ++ y ++ p.kEnd ++ z ++ p.kBrace, [], by simp only [D, hn, List.append_assoc, List.append_nil]⟩
  have := hi.before ha hr hf
  rw [show ((1 : Int)) = (([(p.head, p.kDecl)] : List (Str × Str)).length : Int) from rfl, this]
  simp only [s1, hn, head, joined, List.append_assoc, List.nil_append]

theorem edit2 (hi1 : Ins b1 e1 t1 g1 M1) (hi : Ins b2 e2 t2 g2 M2) (hf : ¬ g2 <:+: p.orig) (hw : '/' ∉ p.kSys) (hm : ¬ p.kSys <:+: M1)
    (hg : ¬ g2 <:+: M1) :
    updateContent (p.s1 M1) b2 e2 [p.kDecl, p.kSys, p.kCall, p.kNl, p.kEnd, p.kBrace] 2 .after t2 = some (p.s2 M1 M2) := by
  obtain ⟨x, y, z, w, hn, hx, hy, hz⟩ := h.tail
  obtain ⟨-, -, -, -, -, -, h7, h8, h9, h10, h11, h12, h13, h14⟩ := h.nonempty
  have ha : Anchored (p.s1 M1) [p.kDecl, p.kSys, p.kCall, p.kNl, p.kEnd, p.kBrace]
      ([(p.head, p.kDecl), (p.n1 ++ M1, p.kSys)] ++ (p.n2, p.kCall) :: [(x, p.kNl), (y, p.kEnd), (z, p.kBrace)]) (w ++ p.kNew1 ++ p.E) := by
    refine ⟨?_, rfl, by simp, ?_⟩
    · simp only [s1, hn, head, joined, List.cons_append, List.nil_append, List.append_assoc]
    · intro q hq
      simp only [List.cons_append, List.nil_append, List.mem_cons, List.not_mem_nil, or_false] at hq
      rcases hq with rfl | rfl | rfl | rfl | rfl | rfl
      · exact ⟨h7, h.decl⟩
      · refine ⟨h8, ?_⟩
        have := notBefore_ins (x := p.n1) (y := []) hw hi1.slashed hm (by simpa using h.sys)
        simpa using this
      · exact ⟨h9, h.call⟩
      · exact ⟨by rw [h.nl]; simp, hx⟩
      · exact ⟨h10, hy⟩
      · exact ⟨h11, hz⟩
  have hr : ¬ p.kDecl <:+: w ++ p.kNew1 ++ p.E := not_infix_sub h.decl'
    ⟨p.n1 ++ p.kSys ++ p.n2 ++ p.kCall ++ x ++ p.kNl ++ y ++ p.kEnd ++ z ++ p.kBrace, [], by simp only [D, hn, List.append_assoc, List.append_nil]⟩
  have hf' : ¬ g2 <:+: p.s1 M1 := by
    refine free2 hi.slash hi1.slashed hg (not_infix_sub hf ?_) (not_infix_sub hf ?_)
    · exact ⟨[], p.kSys ++ p.n2 ++ p.kCall ++ p.n ++ p.kNew1 ++ p.E, by simp only [orig, head, B, C, D, List.append_assoc, List.nil_append]⟩
    · exact ⟨p.head ++ p.kDecl ++ p.n1, [], by simp only [orig, head, B, C, D, List.append_assoc, List.append_nil]⟩
  have := hi.after ha hr hf'
  rw [show ((2 : Int)) = (([(p.head, p.kDecl), (p.n1 ++ M1, p.kSys)] : List (Str × Str)).length : Int) from rfl, this]
  simp only [s2, hn, head, joined, List.append_assoc]

theorem s2_free {w : Str} (hw : '/' ∉ w) (h1 : Slashed M1) (h2 : Slashed M2) (hm1 : ¬ w <:+: M1) (hm2 : ¬ w <:+: M2) (hf : ¬ w <:+: p.orig) :
    ¬ w <:+: p.s2 M1 M2 := by
  refine free2 hw h1 hm1 (not_infix_sub hf ?_) (free2 hw h2 hm2 (not_infix_sub hf ?_) (not_infix_sub hf ?_))
  · exact ⟨[], p.kSys ++ p.n2 ++ p.kCall ++ p.n ++ p.kNew1 ++ p.E, by simp only [orig, head, B, C, D, List.append_assoc, List.nil_append]⟩
  · exact ⟨p.head ++ p.kDecl ++ p.n1, p.n ++ p.kNew1 ++ p.E, by simp only [orig, head, B, C, D, List.append_assoc]⟩
  · exact ⟨p.head ++ p.kDecl ++ p.n1 ++ p.kSys ++ p.n2 ++ p.kCall, [], by simp only [orig, head, B, C, D, List.append_assoc, List.append_nil]⟩

theorem edit3 (h1 : Slashed M1) (h2 : Slashed M2) (hb : b3 ≠ []) (he : e3 ≠ []) (ht : t3 ≠ []) (htag : g3 <:+: b3) (hgs : '/' ∉ g3)
    {o c : Str} (ho : o = "/*old:".toList) (hcl : c = "*/".toList) (hM : M3 = b3 ++ o ++ p.kRace ++ c ++ t3 ++ e3)
    (hf : ¬ g3 <:+: p.orig) (hg1 : ¬ g3 <:+: M1) (hg2 : ¬ g3 <:+: M2) (hw : '/' ∉ p.kNew1) (hm1 : ¬ p.kNew1 <:+: M1) (hm2 : ¬ p.kNew1 <:+: M2) :
    updateContent (p.s2 M1 M2) b3 e3 [p.kNew1, p.kRace, p.kStart] 1 .replace t3 = some (p.s3 M1 M2 M3) := by
  obtain ⟨-, -, -, -, -, -, h7, h8, h9, h10, h11, h12, h13, h14⟩ := h.nonempty
  have ha : Anchored (p.s2 M1 M2) [p.kNew1, p.kRace, p.kStart]
      ([(p.head ++ p.kDecl ++ p.n1 ++ M1 ++ (p.kSys ++ p.n2 ++ p.kCall ++ M2 ++ p.n), p.kNew1)] ++ (p.r1, p.kRace) :: [(p.r2, p.kStart)]) p.r3 := by
    refine ⟨?_, rfl, by simp, ?_⟩
    · simp only [s2, E, joined, List.cons_append, List.nil_append, List.append_assoc]
    · intro q hq
      simp only [List.cons_append, List.nil_append, List.mem_cons, List.not_mem_nil, or_false] at hq
      rcases hq with rfl | rfl | rfl
      · refine ⟨h12, ?_⟩
        have hh := h.new1
        have e1 : p.A ++ p.kClose ++ p.b ++ p.kExit ++ p.c ++ p.kDecl ++ p.n1 ++ p.kSys ++ p.n2 ++ p.kCall ++ p.n =
          (p.head ++ p.kDecl ++ p.n1) ++ (p.kSys ++ p.n2 ++ p.kCall ++ p.n) := by simp only [head, List.append_assoc]
        rw [e1] at hh
        have h3 := notBefore_ins hw h1 hm1 hh
        have e2 : p.head ++ p.kDecl ++ p.n1 ++ M1 ++ (p.kSys ++ p.n2 ++ p.kCall ++ p.n) =
          (p.head ++ p.kDecl ++ p.n1 ++ M1 ++ (p.kSys ++ p.n2 ++ p.kCall)) ++ p.n := by simp only [List.append_assoc]
        rw [e2] at h3
        have h4 := notBefore_ins hw h2 hm2 h3
        simpa only [List.append_assoc] using h4
      · exact ⟨h13, h.race⟩
      · exact ⟨h14, h.start⟩
  have hr : ¬ p.kNew1 <:+: p.r3 := not_infix_sub h.new1' ⟨p.r1 ++ p.kRace ++ p.r2 ++ p.kStart, [], by simp only [E, List.append_assoc, List.append_nil]⟩
  have := replaceAt hb he ht htag ho hcl hM ha hr (s2_free h hgs h1 h2 hg1 hg2 hf)
  rw [show ((1 : Int)) = (([(p.head ++ p.kDecl ++ p.n1 ++ M1 ++ (p.kSys ++ p.n2 ++ p.kCall ++ M2 ++ p.n), p.kNew1)] : List (Str × Str)).length : Int)
    from rfl, this]
  simp only [s3, tl, head, joined, List.append_assoc]

theorem tl_free {w q : Str} (hw : '/' ∉ w) (h1 : Slashed M1) (h2 : Slashed M2) (h3 : Slashed M3) (hm1 : ¬ w <:+: M1) (hm2 : ¬ w <:+: M2)
    (hm3 : ¬ w <:+: M3) (hf : ¬ w <:+: q ++ p.kDecl ++ p.D) : ¬ w <:+: q ++ p.tl M1 M2 M3 := by
  have e : q ++ p.tl M1 M2 M3 = (q ++ p.kDecl ++ p.n1) ++ M1 ++ ((p.kSys ++ p.n2 ++ p.kCall) ++ M2 ++ ((p.n ++ p.kNew1 ++ p.r1) ++ M3 ++
    (p.r2 ++ p.kStart ++ p.r3))) := by simp only [tl, List.append_assoc]
  rw [e]
  refine free2 hw h1 hm1 (not_infix_sub hf ?_) (free2 hw h2 hm2 (not_infix_sub hf ?_) (free2 hw h3 hm3 (not_infix_sub hf ?_) (not_infix_sub hf ?_)))
  · exact ⟨[], p.kSys ++ p.n2 ++ p.kCall ++ p.n ++ p.kNew1 ++ p.E, by simp only [D, List.append_assoc, List.nil_append]⟩
  · exact ⟨q ++ p.kDecl ++ p.n1, p.n ++ p.kNew1 ++ p.E, by simp only [D, List.append_assoc]⟩
  · exact ⟨q ++ p.kDecl ++ p.n1 ++ p.kSys ++ p.n2 ++ p.kCall, p.kRace ++ p.r2 ++ p.kStart ++ p.r3, by simp only [D, E, List.append_assoc]⟩
  · exact ⟨q ++ p.kDecl ++ p.n1 ++ p.kSys ++ p.n2 ++ p.kCall ++ p.n ++ p.kNew1 ++ p.r1 ++ p.kRace, [],
      by simp only [D, E, List.append_assoc, List.append_nil]⟩

theorem edit4 (h1 : Slashed M1) (h2 : Slashed M2) (h3 : Slashed M3) (hi : Ins b4 e4 t4 g4 M4) (hf : ¬ g4 <:+: p.orig) (hg1 : ¬ g4 <:+: M1)
    (hg2 : ¬ g4 <:+: M2) (hg3 : ¬ g4 <:+: M3) (hw : '/' ∉ p.kExit) (hm1 : ¬ p.kExit <:+: M1) (hm2 : ¬ p.kExit <:+: M2) (hm3 : ¬ p.kExit <:+: M3) :
    updateContent (p.s3 M1 M2 M3) b4 e4 [p.kExit, p.kNl] 0 .after t4 = some (p.s4 M1 M2 M3 M4) := by
  obtain ⟨-, -, -, -, -, h6, -⟩ := h.nonempty
  obtain ⟨x, y, hc, hx⟩ := nl_split h.nl2
  have ha : Anchored (p.s3 M1 M2 M3) [p.kExit, p.kNl] ([] ++ (p.A ++ p.kClose ++ p.b, p.kExit) :: [(x, p.kNl)]) (y ++ p.tl M1 M2 M3) := by
    refine ⟨?_, rfl, by simp, ?_⟩
    · simp only [s3, hc, h.nl, head, joined, List.nil_append, List.append_assoc]
    · intro q hq
      simp only [List.nil_append, List.mem_cons, List.not_mem_nil, or_false] at hq
      rcases hq with rfl | rfl
      · exact ⟨h6, h.exit⟩
      · exact ⟨by rw [h.nl]; simp, by rw [h.nl]; exact hx⟩
  have hr : ¬ p.kExit <:+: y ++ p.tl M1 M2 M3 := by
    refine tl_free h hw h1 h2 h3 hm1 hm2 hm3 (not_infix_sub h.exit' ?_)
    exact ⟨x ++ ['\n'], [], by simp only [C, hc, List.append_assoc, List.append_nil]⟩
  have hf' : ¬ g4 <:+: p.s3 M1 M2 M3 := by
    refine tl_free h hi.slash h1 h2 h3 hg1 hg2 hg3 (not_infix_sub hf ?_)
    exact ⟨[], [], by simp only [orig, head, B, C, List.append_assoc, List.nil_append, List.append_nil]⟩
  have := hi.after ha hr hf'
  rw [show ((0 : Int)) = (([] : List (Str × Str)).length : Int) from rfl, this]
  simp only [s4, hc, h.nl, joined, List.append_assoc]

theorem edit5 (h1 : Slashed M1) (h2 : Slashed M2) (h3 : Slashed M3) (h4 : Slashed M4) (hi : Ins b5 e5 t5 g5 M5) (hf : ¬ g5 <:+: p.orig)
    (hg1 : ¬ g5 <:+: M1) (hg2 : ¬ g5 <:+: M2) (hg3 : ¬ g5 <:+: M3) (hg4 : ¬ g5 <:+: M4) (hw : '/' ∉ p.kMain) (hm1 : ¬ p.kMain <:+: M1)
    (hm2 : ¬ p.kMain <:+: M2) (hm3 : ¬ p.kMain <:+: M3) (hm4 : ¬ p.kMain <:+: M4) :
    updateContent (p.s4 M1 M2 M3 M4) b5 e5 [p.kMain, p.kDo, p.kInit, p.kParen, p.kDo, p.kClose, p.kNl] 5 .before t5 =
      some (p.s5 M1 M2 M3 M4 M5) := by
  obtain ⟨k1, k2, k3, k4, k5, -⟩ := h.nonempty
  obtain ⟨x, y, hb, hx⟩ := nl_split h.nl1
  have ha : Anchored (p.s4 M1 M2 M3 M4) [p.kMain, p.kDo, p.kInit, p.kParen, p.kDo, p.kClose, p.kNl]
      ([(p.m0, p.kMain), (p.m1, p.kDo), (p.m2, p.kInit), (p.m3, p.kParen), (p.m4, p.kDo)] ++ (p.m5, p.kClose) :: [(x, p.kNl)])
      (y ++ p.kExit ++ M4 ++ (p.c ++ p.tl M1 M2 M3)) := by
    refine ⟨?_, rfl, by simp, ?_⟩
    · simp only [s4, A, hb, h.nl, joined, List.cons_append, List.nil_append, List.append_assoc]
    · intro q hq
      simp only [List.cons_append, List.nil_append, List.mem_cons, List.not_mem_nil, or_false] at hq
      rcases hq with rfl | rfl | rfl | rfl | rfl | rfl | rfl
      · exact ⟨k1, h.main⟩
      · exact ⟨k2, h.do1⟩
      · exact ⟨k3, h.init⟩
      · exact ⟨k4, h.paren⟩
      · exact ⟨k2, h.do2⟩
      · exact ⟨k5, h.close⟩
      · exact ⟨by rw [h.nl]; simp, by rw [h.nl]; exact hx⟩
  have hr : ¬ p.kMain <:+: y ++ p.kExit ++ M4 ++ (p.c ++ p.tl M1 M2 M3) := by
    refine free2 hw h4 hm4 (not_infix_sub h.main' ?_) (tl_free h hw h1 h2 h3 hm1 hm2 hm3 (not_infix_sub h.main' ?_))
    · exact ⟨x ++ ['\n'], p.C, by simp only [B, hb, List.append_assoc]⟩
    · exact ⟨p.b ++ p.kExit, [], by simp only [B, C, List.append_assoc, List.append_nil]⟩
  have hf' : ¬ g5 <:+: p.s4 M1 M2 M3 M4 := by
    refine free2 hi.slash h4 hg4 (not_infix_sub hf ?_) (tl_free h hi.slash h1 h2 h3 hg1 hg2 hg3 (not_infix_sub hf ?_))
    · exact ⟨[], p.C, by simp only [orig, B, List.append_assoc, List.nil_append]⟩
    · exact ⟨p.A ++ p.kClose ++ p.b ++ p.kExit, [], by simp only [orig, B, C, List.append_assoc, List.append_nil]⟩
  have := hi.before ha hr hf'
  rw [show ((5 : Int)) = (([(p.m0, p.kMain), (p.m1, p.kDo), (p.m2, p.kInit), (p.m3, p.kParen), (p.m4, p.kDo)] : List (Str × Str)).length : Int)
    from rfl, this]
  simp only [s5, A, hb, h.nl, joined, List.append_assoc]

end ProcText
end Verif.Instrument.GoHooks
