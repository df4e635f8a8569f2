/-
C104: the edits of exec.go one after the other, for any anchors and marks.
-/
import Verif.Instrument.GoCmdText

namespace Verif.Instrument.GoCmd
open Verif.Text Verif.Instrument.PatchText Verif.Instrument.PatchText.Spec Verif.Instrument.GoHooks
open Verif.Instrument.GoHooks.Spec (Once ins)

theorem old_ins (n : String) (t : Str) : (ins n t).old = [] := rfl
theorem old_region (n o t : Str) : (Mark.region n o t).old = o := rfl

/-- Free of `w`, as the original is. -/
theorem free_of {w content O : Str} (hw : '/' ∉ w) (l : List (Str × Mark)) (r : Str) (hm : ∀ q ∈ l, Slashed q.2.text ∧ ¬ w <:+: q.2.text)
    (h : ¬ w <:+: O) (e : content = Spec.text l r) (eo : original l r = O) : ¬ w <:+: content := by
  rw [e]
  exact free_text hw l r hm (by rw [eo]; exact h)

section
variable {K1 K2 B L R I C S a b c d e f g h i : Str} {t1 t2 t3 t4 : Str} {n1 n2 n3 n4 : String}

theorem comp17 (N1 : Named n1) (N2 : Named n2) (N4 : Named n4) (ht1 : t1 ≠ []) (ht2 : t2 ≠ []) (ht4 : t4 ≠ [])
    (hB : B ≠ []) (hL : L ≠ []) (hC : C ≠ []) (hS : S ≠ []) (h1 : K1 ≠ []) (h2 : K2 ≠ [])
    (b1 : NotBefore K1 a) (r1 : ¬ K1 <:+: b ++ K2 ++ (c ++ B ++ d ++ L ++ e ++ C ++ h ++ S ++ i)) (b2 : NotBefore K2 b)
    (bB : NotBefore B (a ++ K1 ++ b ++ K2 ++ c)) (rB : ¬ B <:+: d ++ L ++ e ++ C ++ h ++ S ++ i) (bL : NotBefore L d) (bC : NotBefore C e)
    (bS : NotBefore S h) (sC : '/' ∉ C) (s1 : '/' ∉ K1)
    (mC : ¬ C <:+: (ins n1 t1).text) (m1 : ¬ K1 <:+: (ins n1 t1).text) (m2 : ¬ K1 <:+: (Mark.region n2.toList S t2).text)
    (f21 : ¬ tagOf n2 <:+: (ins n1 t1).text) (f41 : ¬ tagOf n4 <:+: (ins n1 t1).text) (f42 : ¬ tagOf n4 <:+: (Mark.region n2.toList S t2).text)
    (hu : Unmarked (a ++ K1 ++ b ++ K2 ++ (c ++ B ++ d ++ L ++ e ++ C ++ h ++ S ++ i))) :
    (((updateContent (a ++ K1 ++ b ++ K2 ++ (c ++ B ++ d ++ L ++ e ++ C ++ h ++ S ++ i)) (bm n1) (em n1) [B, L, C] 2 .before t1).bind
      (fun x => updateContent x (bm n2) (em n2) [B, L, C, S] 3 .replace t2)).bind
      (fun x => updateContent x (bm n4) (em n4) [K1, K2] 1 .after t4)) =
      some (Spec.text [(a ++ K1 ++ b ++ K2, ins n4 t4), (c ++ B ++ d ++ L ++ e, ins n1 t1), (C ++ h, Mark.region n2.toList S t2)] i) := by
  have eO : a ++ K1 ++ b ++ K2 ++ (c ++ B ++ d ++ L ++ e ++ C ++ h ++ S ++ i) = (a ++ K1 ++ b ++ K2 ++ c) ++ B ++ d ++ L ++ e ++ C ++ (h ++ S ++ i) := by
    simp only [List.append_assoc]
  have hf := fun n => tag_free hu n
  rw [eO]
  rw [step_declare N1 ht1 hB hL hC bB bL bC (not_infix_sub rB ⟨d ++ L ++ e ++ C, [], by simp only [List.append_assoc, List.append_nil]⟩)
    (by rw [← eO]; exact hf n1), Option.bind_some]
  have e1 : a ++ K1 ++ b ++ K2 ++ c ++ B ++ d ++ L ++ e ++ (ins n1 t1).text ++ (C ++ (h ++ S ++ i)) =
    a ++ K1 ++ b ++ K2 ++ c ++ B ++ d ++ L ++ e ++ (ins n1 t1).text ++ (C ++ h ++ S ++ i) := by simp only [List.append_assoc]
  rw [e1]
  rw [step_argument ht2 hB hL hC hS bB bL bC bS sC mC (not_infix_sub rB ⟨d ++ L ++ e ++ C ++ h ++ S, [], by simp only [List.append_nil]⟩)
    (free_of (slash_tag N2) [(a ++ K1 ++ b ++ K2 ++ c ++ B ++ d ++ L ++ e, ins n1 t1)] (C ++ h ++ S ++ i)
      (by intro q hq; rw [List.mem_singleton.1 hq]; exact ⟨slashed_ins _ _, f21⟩) (hf n2) rfl
      (by simp only [original, old_ins, List.append_nil, List.append_assoc])), Option.bind_some]
  have e2 : a ++ K1 ++ b ++ K2 ++ c ++ B ++ d ++ L ++ e ++ (ins n1 t1).text ++ (C ++ h ++ (Mark.region n2.toList S t2).text ++ i) =
    a ++ K1 ++ b ++ K2 ++ Spec.text [(c ++ B ++ d ++ L ++ e, ins n1 t1), (C ++ h, Mark.region n2.toList S t2)] i := by
    simp only [Spec.text, List.append_assoc]
  rw [e2, step_sum N4 ht4 h1 h2 b1 b2 (free_of s1 _ _ (by
      intro q hq
      simp only [List.mem_cons, List.not_mem_nil, or_false] at hq
      rcases hq with rfl | rfl
      · exact ⟨slashed_ins _ _, m1⟩
      · exact ⟨slashed_region _ _ _, m2⟩) (not_infix_sub r1 infix_right) rfl
      (by simp only [original, old_ins, old_region, List.append_nil, List.append_assoc]))
    (free_of (slash_tag N4) [(a ++ K1 ++ b ++ K2 ++ c ++ B ++ d ++ L ++ e, ins n1 t1), (C ++ h, Mark.region n2.toList S t2)] i (by
      intro q hq
      simp only [List.mem_cons, List.not_mem_nil, or_false] at hq
      rcases hq with rfl | rfl
      · exact ⟨slashed_ins _ _, f41⟩
      · exact ⟨slashed_region _ _ _, f42⟩) (hf n4) (by simp only [Spec.text, List.append_assoc])
      (by simp only [original, old_ins, old_region, List.append_nil, List.append_assoc]))]
  simp only [Spec.text, List.append_assoc]

theorem comp20 (N1 : Named n1) (N2 : Named n2) (N3 : Named n3) (N4 : Named n4) (ht1 : t1 ≠ []) (ht2 : t2 ≠ []) (ht3 : t3 ≠ []) (ht4 : t4 ≠ [])
    (hB : B ≠ []) (hL : L ≠ []) (hR : R ≠ []) (hI : I ≠ []) (hC : C ≠ []) (hS : S ≠ []) (h1 : K1 ≠ []) (h2 : K2 ≠ [])
    (b1 : NotBefore K1 a) (r1 : ¬ K1 <:+: b ++ K2 ++ (c ++ B ++ d ++ L ++ (e ++ R ++ f ++ I ++ g) ++ C ++ h ++ S ++ i)) (b2 : NotBefore K2 b)
    (bB : NotBefore B (a ++ K1 ++ b ++ K2 ++ c)) (rB : ¬ B <:+: d ++ L ++ (e ++ R ++ f ++ I ++ g) ++ C ++ h ++ S ++ i) (bL : NotBefore L d)
    (bR : NotBefore R e) (bI : NotBefore I f) (bC : NotBefore C (e ++ R ++ f ++ I ++ g))
    (bS : NotBefore S h) (sC : '/' ∉ C) (sB : '/' ∉ B) (s1 : '/' ∉ K1)
    (mC : ¬ C <:+: (ins n1 t1).text) (mB1 : ¬ B <:+: (ins n1 t1).text) (mB2 : ¬ B <:+: (Mark.region n2.toList S t2).text)
    (m1 : ¬ K1 <:+: (ins n1 t1).text) (m2 : ¬ K1 <:+: (Mark.region n2.toList S t2).text) (m3 : ¬ K1 <:+: (Mark.region n3.toList I t3).text)
    (f21 : ¬ tagOf n2 <:+: (ins n1 t1).text) (f31 : ¬ tagOf n3 <:+: (ins n1 t1).text) (f32 : ¬ tagOf n3 <:+: (Mark.region n2.toList S t2).text)
    (f41 : ¬ tagOf n4 <:+: (ins n1 t1).text) (f42 : ¬ tagOf n4 <:+: (Mark.region n2.toList S t2).text)
    (f43 : ¬ tagOf n4 <:+: (Mark.region n3.toList I t3).text)
    (hu : Unmarked (a ++ K1 ++ b ++ K2 ++ (c ++ B ++ d ++ L ++ (e ++ R ++ f ++ I ++ g) ++ C ++ h ++ S ++ i))) :
    ((((updateContent (a ++ K1 ++ b ++ K2 ++ (c ++ B ++ d ++ L ++ (e ++ R ++ f ++ I ++ g) ++ C ++ h ++ S ++ i)) (bm n1) (em n1) [B, L, C] 2
        .before t1).bind
      (fun x => updateContent x (bm n2) (em n2) [B, L, C, S] 3 .replace t2)).bind
      (fun x => updateContent x (bm n3) (em n3) [B, L, R, I] 3 .replace t3)).bind
      (fun x => updateContent x (bm n4) (em n4) [K1, K2] 1 .after t4)) =
      some (Spec.text [(a ++ K1 ++ b ++ K2, ins n4 t4), (c ++ B ++ d ++ L ++ e ++ R ++ f, Mark.region n3.toList I t3), (g, ins n1 t1),
        (C ++ h, Mark.region n2.toList S t2)] i) := by
  have eO : a ++ K1 ++ b ++ K2 ++ (c ++ B ++ d ++ L ++ (e ++ R ++ f ++ I ++ g) ++ C ++ h ++ S ++ i) =
      (a ++ K1 ++ b ++ K2 ++ c) ++ B ++ d ++ L ++ (e ++ R ++ f ++ I ++ g) ++ C ++ (h ++ S ++ i) := by
    simp only [List.append_assoc]
  have hf := fun n => tag_free hu n
  rw [eO]
  rw [step_declare N1 ht1 hB hL hC bB bL bC
    (not_infix_sub rB ⟨d ++ L ++ (e ++ R ++ f ++ I ++ g) ++ C, [], by simp only [List.append_assoc, List.append_nil]⟩)
    (by rw [← eO]; exact hf n1), Option.bind_some]
  have e1 : a ++ K1 ++ b ++ K2 ++ c ++ B ++ d ++ L ++ (e ++ R ++ f ++ I ++ g) ++ (ins n1 t1).text ++ (C ++ (h ++ S ++ i)) =
    a ++ K1 ++ b ++ K2 ++ c ++ B ++ d ++ L ++ (e ++ R ++ f ++ I ++ g) ++ (ins n1 t1).text ++ (C ++ h ++ S ++ i) := by simp only [List.append_assoc]
  rw [e1]
  rw [step_argument ht2 hB hL hC hS bB bL bC bS sC mC
    (not_infix_sub rB ⟨d ++ L ++ (e ++ R ++ f ++ I ++ g) ++ C ++ h ++ S, [], by simp only [List.append_nil]⟩)
    (free_of (slash_tag N2) [(a ++ K1 ++ b ++ K2 ++ c ++ B ++ d ++ L ++ (e ++ R ++ f ++ I ++ g), ins n1 t1)] (C ++ h ++ S ++ i)
      (by intro q hq; rw [List.mem_singleton.1 hq]; exact ⟨slashed_ins _ _, f21⟩) (hf n2) rfl
      (by simp only [original, old_ins, List.append_nil, List.append_assoc])), Option.bind_some]
  have e2 : a ++ K1 ++ b ++ K2 ++ c ++ B ++ d ++ L ++ (e ++ R ++ f ++ I ++ g) ++ (ins n1 t1).text ++ (C ++ h ++ (Mark.region n2.toList S t2).text ++ i) =
    (a ++ K1 ++ b ++ K2 ++ c) ++ B ++ d ++ L ++ e ++ R ++ f ++ I ++ Spec.text [(g, ins n1 t1), (C ++ h, Mark.region n2.toList S t2)] i := by
    simp only [Spec.text, List.append_assoc]
  have two : ∀ {w : Str}, ¬ w <:+: (ins n1 t1).text → ¬ w <:+: (Mark.region n2.toList S t2).text → ∀ x, ∀ q ∈ [(x, ins n1 t1), (C ++ h, Mark.region n2.toList S t2)],
      Slashed q.2.text ∧ ¬ w <:+: q.2.text := by
    intro w h1 h2 x q hq
    simp only [List.mem_cons, List.not_mem_nil, or_false] at hq
    rcases hq with rfl | rfl
    · exact ⟨slashed_ins _ _, h1⟩
    · exact ⟨slashed_region _ _ _, h2⟩
  rw [e2, step_infiles ht3 hB hL hR hI bB bL bR bI
    (free_of sB _ _ (two mB1 mB2 g) (not_infix_sub rB (a := g ++ C ++ h ++ S ++ i) ⟨d ++ L ++ (e ++ R ++ f ++ I), [], by simp only [List.append_assoc, List.append_nil]⟩) rfl
      (by simp only [original, old_ins, old_region, List.append_nil, List.append_assoc]))
    (free_of (slash_tag N3) [(a ++ K1 ++ b ++ K2 ++ c ++ B ++ d ++ L ++ e ++ R ++ f ++ I ++ g, ins n1 t1), (C ++ h, Mark.region n2.toList S t2)] i
      (two f31 f32 _) (hf n3) (by simp only [Spec.text, List.append_assoc])
      (by simp only [original, old_ins, old_region, List.append_nil, List.append_assoc])), Option.bind_some]
  have e3 : a ++ K1 ++ b ++ K2 ++ c ++ B ++ d ++ L ++ e ++ R ++ f ++ (Mark.region n3.toList I t3).text ++
      Spec.text [(g, ins n1 t1), (C ++ h, Mark.region n2.toList S t2)] i =
    a ++ K1 ++ b ++ K2 ++ Spec.text [(c ++ B ++ d ++ L ++ e ++ R ++ f, Mark.region n3.toList I t3), (g, ins n1 t1),
      (C ++ h, Mark.region n2.toList S t2)] i := by
    simp only [Spec.text, List.append_assoc]
  have three : ∀ {w : Str}, ¬ w <:+: (Mark.region n3.toList I t3).text → ¬ w <:+: (ins n1 t1).text → ¬ w <:+: (Mark.region n2.toList S t2).text →
      ∀ x, ∀ q ∈ [(x, Mark.region n3.toList I t3), (g, ins n1 t1), (C ++ h, Mark.region n2.toList S t2)],
      Slashed q.2.text ∧ ¬ w <:+: q.2.text := by
    intro w h3 h1 h2 x q hq
    rcases List.mem_cons.1 hq with rfl | hq
    · exact ⟨slashed_region _ _ _, h3⟩
    · exact two h1 h2 g q hq
  rw [e3, step_sum N4 ht4 h1 h2 b1 b2 (free_of s1 _ _ (three m3 m1 m2 _) (not_infix_sub r1 infix_right) rfl
      (by simp only [original, old_ins, old_region, List.append_nil, List.append_assoc]))
    (free_of (slash_tag N4) [(a ++ K1 ++ b ++ K2 ++ c ++ B ++ d ++ L ++ e ++ R ++ f, Mark.region n3.toList I t3), (g, ins n1 t1),
      (C ++ h, Mark.region n2.toList S t2)] i (three f43 f41 f42 _) (hf n4) (by simp only [Spec.text, List.append_assoc])
      (by simp only [original, old_ins, old_region, List.append_nil, List.append_assoc]))]
  simp only [Spec.text, List.append_assoc]

theorem comp25 (N4 : Named n4) (ht3 : t3 ≠ []) (ht4 : t4 ≠ [])
    (hB : B ≠ []) (hL : L ≠ []) (hI : I ≠ []) (h1 : K1 ≠ []) (h2 : K2 ≠ [])
    (b1 : NotBefore K1 a) (r1 : ¬ K1 <:+: b ++ K2 ++ (c ++ B ++ d ++ L ++ e ++ I ++ i)) (b2 : NotBefore K2 b)
    (bB : NotBefore B (a ++ K1 ++ b ++ K2 ++ c)) (rB : ¬ B <:+: d ++ L ++ e ++ I ++ i) (bL : NotBefore L d) (bI : NotBefore I e)
    (s1 : '/' ∉ K1) (m3 : ¬ K1 <:+: (Mark.region n3.toList I t3).text) (f43 : ¬ tagOf n4 <:+: (Mark.region n3.toList I t3).text)
    (hu : Unmarked (a ++ K1 ++ b ++ K2 ++ (c ++ B ++ d ++ L ++ e ++ I ++ i))) :
    ((updateContent (a ++ K1 ++ b ++ K2 ++ (c ++ B ++ d ++ L ++ e ++ I ++ i)) (bm n3) (em n3) [B, L, I] 2 .replace t3).bind
      (fun x => updateContent x (bm n4) (em n4) [K1, K2] 1 .after t4)) =
      some (Spec.text [(a ++ K1 ++ b ++ K2, ins n4 t4), (c ++ B ++ d ++ L ++ e, Mark.region n3.toList I t3)] i) := by
  have eO : a ++ K1 ++ b ++ K2 ++ (c ++ B ++ d ++ L ++ e ++ I ++ i) = (a ++ K1 ++ b ++ K2 ++ c) ++ B ++ d ++ L ++ e ++ I ++ i := by
    simp only [List.append_assoc]
  have hf := fun n => tag_free hu n
  rw [eO, step_infiles25 ht3 hB hL hI bB bL bI (not_infix_sub rB infix_right) (by rw [← eO]; exact hf n3), Option.bind_some]
  have e3 : a ++ K1 ++ b ++ K2 ++ c ++ B ++ d ++ L ++ e ++ (Mark.region n3.toList I t3).text ++ i =
    a ++ K1 ++ b ++ K2 ++ Spec.text [(c ++ B ++ d ++ L ++ e, Mark.region n3.toList I t3)] i := by
    simp only [Spec.text, List.append_assoc]
  rw [e3, step_sum N4 ht4 h1 h2 b1 b2
    (free_of s1 _ _ (by intro q hq; rw [List.mem_singleton.1 hq]; exact ⟨slashed_region _ _ _, m3⟩) (not_infix_sub r1 infix_right) rfl
      (by simp only [original, old_region, List.append_assoc]))
    (free_of (slash_tag N4) [(a ++ K1 ++ b ++ K2 ++ c ++ B ++ d ++ L ++ e, Mark.region n3.toList I t3)] i
      (by intro q hq; rw [List.mem_singleton.1 hq]; exact ⟨slashed_region _ _ _, f43⟩) (hf n4) (by simp only [Spec.text, List.append_assoc])
      (by simp only [original, old_region, List.append_assoc]))]
  simp only [Spec.text, List.append_assoc]

theorem comp26 (N4 : Named n4) (ht3 : t3 ≠ []) (ht4 : t4 ≠ [])
    (hB : B ≠ []) (hI : I ≠ []) (h1 : K1 ≠ []) (h2 : K2 ≠ [])
    (b1 : NotBefore K1 a) (r1 : ¬ K1 <:+: b ++ K2 ++ (c ++ B ++ d ++ I ++ i)) (b2 : NotBefore K2 b)
    (bB : NotBefore B (a ++ K1 ++ b ++ K2 ++ c)) (rB : ¬ B <:+: d ++ I ++ i) (bI : NotBefore I d)
    (s1 : '/' ∉ K1) (m3 : ¬ K1 <:+: (Mark.region n3.toList I t3).text) (f43 : ¬ tagOf n4 <:+: (Mark.region n3.toList I t3).text)
    (hu : Unmarked (a ++ K1 ++ b ++ K2 ++ (c ++ B ++ d ++ I ++ i))) :
    ((updateContent (a ++ K1 ++ b ++ K2 ++ (c ++ B ++ d ++ I ++ i)) (bm n3) (em n3) [B, I] 1 .replace t3).bind
      (fun x => updateContent x (bm n4) (em n4) [K1, K2] 1 .after t4)) =
      some (Spec.text [(a ++ K1 ++ b ++ K2, ins n4 t4), (c ++ B ++ d, Mark.region n3.toList I t3)] i) := by
  have eO : a ++ K1 ++ b ++ K2 ++ (c ++ B ++ d ++ I ++ i) = (a ++ K1 ++ b ++ K2 ++ c) ++ B ++ d ++ I ++ i := by
    simp only [List.append_assoc]
  have hf := fun n => tag_free hu n
  rw [eO, step_infiles26 ht3 hB hI bB bI (not_infix_sub rB infix_right) (by rw [← eO]; exact hf n3), Option.bind_some]
  have e3 : a ++ K1 ++ b ++ K2 ++ c ++ B ++ d ++ (Mark.region n3.toList I t3).text ++ i =
    a ++ K1 ++ b ++ K2 ++ Spec.text [(c ++ B ++ d, Mark.region n3.toList I t3)] i := by
    simp only [Spec.text, List.append_assoc]
  rw [e3, step_sum N4 ht4 h1 h2 b1 b2
    (free_of s1 _ _ (by intro q hq; rw [List.mem_singleton.1 hq]; exact ⟨slashed_region _ _ _, m3⟩) (not_infix_sub r1 infix_right) rfl
      (by simp only [original, old_region, List.append_assoc]))
    (free_of (slash_tag N4) [(a ++ K1 ++ b ++ K2 ++ c ++ B ++ d, Mark.region n3.toList I t3)] i
      (by intro q hq; rw [List.mem_singleton.1 hq]; exact ⟨slashed_region _ _ _, f43⟩) (hf n4) (by simp only [Spec.text, List.append_assoc])
      (by simp only [original, old_region, List.append_assoc]))]
  simp only [Spec.text, List.append_assoc]

theorem comp26' (N4 : Named n4) (ht3 : t3 ≠ []) (ht4 : t4 ≠ [])
    (hB : B ≠ []) (hI : I ≠ []) (h1 : K1 ≠ []) (h2 : K2 ≠ [])
    (bB : NotBefore B c) (rB : ¬ B <:+: d ++ I ++ a ++ K1 ++ b ++ K2 ++ i) (bI : NotBefore I d)
    (b1 : NotBefore K1 (c ++ B ++ d ++ I ++ a)) (r1 : ¬ K1 <:+: b ++ K2 ++ i) (b2 : NotBefore K2 b)
    (s1 : '/' ∉ K1) (m3 : ¬ K1 <:+: (Mark.region n3.toList I t3).text) (f43 : ¬ tagOf n4 <:+: (Mark.region n3.toList I t3).text)
    (hu : Unmarked (c ++ B ++ d ++ I ++ a ++ K1 ++ b ++ K2 ++ i)) :
    ((updateContent (c ++ B ++ d ++ I ++ a ++ K1 ++ b ++ K2 ++ i) (bm n3) (em n3) [B, I] 1 .replace t3).bind
      (fun x => updateContent x (bm n4) (em n4) [K1, K2] 1 .after t4)) =
      some (Spec.text [(c ++ B ++ d, Mark.region n3.toList I t3), (a ++ K1 ++ b ++ K2, ins n4 t4)] i) := by
  have eO : c ++ B ++ d ++ I ++ a ++ K1 ++ b ++ K2 ++ i = c ++ B ++ d ++ I ++ (a ++ K1 ++ b ++ K2 ++ i) := by
    simp only [List.append_assoc]
  have hf := fun n => tag_free hu n
  rw [eO, step_infiles26 ht3 hB hI bB bI (not_infix_sub rB ⟨d ++ I, [], by simp only [List.append_assoc, List.append_nil]⟩)
    (by rw [← eO]; exact hf n3), Option.bind_some]
  have hm : ∀ {w : Str}, ¬ w <:+: (Mark.region n3.toList I t3).text → ∀ q ∈ [(c ++ B ++ d, Mark.region n3.toList I t3)],
      Slashed q.2.text ∧ ¬ w <:+: q.2.text := by
    intro w h q hq; rw [List.mem_singleton.1 hq]; exact ⟨slashed_region _ _ _, h⟩
  have e3 : c ++ B ++ d ++ (Mark.region n3.toList I t3).text ++ (a ++ K1 ++ b ++ K2 ++ i) =
    Spec.text [(c ++ B ++ d, Mark.region n3.toList I t3)] a ++ K1 ++ b ++ K2 ++ i := by
    simp only [Spec.text, List.append_assoc]
  rw [e3, step_sum N4 ht4 h1 h2
    (notBefore_text h1 s1 _ _ (hm m3) (by simp only [original, old_region]; simpa only [List.append_assoc] using b1)) b2
    (not_infix_sub r1 infix_right)
    (free_of (slash_tag N4) [(c ++ B ++ d, Mark.region n3.toList I t3)] (a ++ K1 ++ b ++ K2 ++ i) (hm f43) (hf n4)
      (by simp only [Spec.text, List.append_assoc]) (by simp only [original, old_region, List.append_assoc]))]
  simp only [Spec.text, List.append_assoc]

end
end Verif.Instrument.GoCmd
