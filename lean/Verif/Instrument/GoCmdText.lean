/-
C104: edits at the last anchor, for any anchors and marks.
-/
import Verif.Instrument.GoCmdSpec
import Verif.Instrument.GoHooksFiles

namespace Verif.Instrument.GoCmd
open Verif.Text Verif.Instrument.PatchText Verif.Instrument.PatchText.Spec Verif.Instrument.GoHooks
open Verif.Instrument.GoHooks.Spec (Once ins)

theorem free_text {w : Str} (hw : '/' ∉ w) : ∀ (l : List (Str × Mark)) (r : Str), (∀ q ∈ l, Slashed q.2.text ∧ ¬ w <:+: q.2.text) →
    ¬ w <:+: original l r → ¬ w <:+: Spec.text l r
  | [], _, _, h => h
  | (p, m) :: l, r, hm, h => by
    have hq := hm (p, m) (List.mem_cons_self ..)
    refine free2 hw hq.1 hq.2 (not_infix_sub h ?_) (free_text hw l r (fun q hq => hm q (List.mem_cons_of_mem _ hq)) (not_infix_sub h ?_))
    · exact ⟨[], m.old ++ original l r, by simp only [original, List.append_assoc, List.nil_append]⟩
    · exact ⟨p ++ m.old, [], by simp only [original, List.append_nil]⟩

theorem notBefore_text {w : Str} (hne : w ≠ []) (hw : '/' ∉ w) (l : List (Str × Mark)) (r : Str)
    (hm : ∀ q ∈ l, Slashed q.2.text ∧ ¬ w <:+: q.2.text) (h : NotBefore w (original l r)) : NotBefore w (Spec.text l r) := by
  unfold NotBefore at h ⊢
  have e1 : ∀ (l : List (Str × Mark)), (original l r ++ w).dropLast = original l (r ++ w).dropLast := by
    intro l
    induction l with
    | nil => rfl
    | cons q l ih =>
      simp only [original]
      rw [← ih, List.append_assoc, dropLast_app]
      simp [hne]
  have e2 : ∀ (l : List (Str × Mark)), (Spec.text l r ++ w).dropLast = Spec.text l (r ++ w).dropLast := by
    intro l
    induction l with
    | nil => rfl
    | cons q l ih =>
      simp only [Spec.text]
      rw [← ih, List.append_assoc, dropLast_app]
      simp [hne]
  rw [e1] at h
  rw [e2]
  exact free_text hw l _ hm h

theorem joined_last : ∀ (l : List (Str × Str)) (u a rest : Str), joined (l ++ [(u, a)]) rest = joined l u ++ a ++ rest
  | [], u, a, rest => rfl
  | (x, y) :: l, u, a, rest => by
    simp only [List.cons_append, joined]
    rw [joined_last l u a rest]
    simp only [List.append_assoc]

theorem anchored_last {l : List (Str × Str)} {u a rest k content : Str} {seq : List Str} (hk : l.map (·.2) ++ [a] = k :: seq)
    (hl : ∀ q ∈ l, q.2 ≠ [] ∧ NotBefore q.2 q.1) (ha : a ≠ []) (hu : NotBefore a u) (hc : content = joined l u ++ a ++ rest) :
    Anchored content (k :: seq) (l ++ [(u, a)]) rest := by
  refine ⟨by rw [hc, joined_last], by rw [← hk]; simp, by simp, ?_⟩
  intro q hq
  rcases List.mem_append.1 hq with hq | hq
  · exact hl q hq
  · rw [List.mem_singleton.1 hq]
    exact ⟨ha, hu⟩

theorem before_last {b e t g M : Str} (hi : Ins b e t g M) {l : List (Str × Str)} {u a rest k content : Str} {seq : List Str}
    (hk : l.map (·.2) ++ [a] = k :: seq) (hl : ∀ q ∈ l, q.2 ≠ [] ∧ NotBefore q.2 q.1) (ha : a ≠ []) (hu : NotBefore a u)
    (hr : ¬ k <:+: rest) (hc : content = joined l u ++ a ++ rest) (hf : ¬ g <:+: content) :
    updateContent content b e (k :: seq) l.length .before t = some (joined l u ++ M ++ (a ++ rest)) := by
  have := hi.before (anchored_last hk hl ha hu hc) hr hf
  rw [this]
  simp only [joined, List.append_assoc]

theorem after_last {b e t g M : Str} (hi : Ins b e t g M) {l : List (Str × Str)} {u a rest k content : Str} {seq : List Str}
    (hk : l.map (·.2) ++ [a] = k :: seq) (hl : ∀ q ∈ l, q.2 ≠ [] ∧ NotBefore q.2 q.1) (ha : a ≠ []) (hu : NotBefore a u)
    (hr : ¬ k <:+: rest) (hc : content = joined l u ++ a ++ rest) (hf : ¬ g <:+: content) :
    updateContent content b e (k :: seq) l.length .after t = some (joined l u ++ a ++ M ++ rest) := by
  have := hi.after (anchored_last hk hl ha hu hc) hr hf
  rw [this]
  simp only [joined, List.append_assoc]

theorem replace_last {label : String} {t : Str} (ht : t ≠ []) {l : List (Str × Str)} {u a rest k content : Str} {seq : List Str}
    (hk : l.map (·.2) ++ [a] = k :: seq) (hl : ∀ q ∈ l, q.2 ≠ [] ∧ NotBefore q.2 q.1) (ha : a ≠ []) (hu : NotBefore a u)
    (hr : ¬ k <:+: rest) (hc : content = joined l u ++ a ++ rest) (hf : ¬ tagOf label <:+: content) :
    updateContent content (bm label) (em label) (k :: seq) l.length .replace t =
      some (joined l u ++ (Mark.region label.toList a t).text ++ rest) := by
  have := replaceAt (bm_ne label) (em_ne label) ht (tag_bm label) rfl rfl (region_text' label a t ha) (anchored_last hk hl ha hu hc) hr hf
  rw [this]
  simp only [joined]

/-! ### The edits of exec.go -/

section
variable {K1 K2 B L R I C S a b c d e f h i P z : Str} {t1 t2 t3 t4 : Str} {n1 n2 n3 n4 : String}

/-- `nᵢ` is a name for marks. -/
def Named (n : String) : Prop := '/' ∉ n.toList

theorem slashed_ins (n : String) (t : Str) : Slashed (ins n t).text := slashed_region _ _ _

theorem step_declare (hn : Named n1) (ht : t1 ≠ []) (hB : B ≠ []) (hL : L ≠ []) (hC : C ≠ []) (bB : NotBefore B P) (bL : NotBefore L d)
    (bC : NotBefore C e) (hr : ¬ B <:+: z) (hf : ¬ tagOf n1 <:+: P ++ B ++ d ++ L ++ e ++ C ++ z) :
    updateContent (P ++ B ++ d ++ L ++ e ++ C ++ z) (bm n1) (em n1) [B, L, C] 2 .before t1 =
      some (P ++ B ++ d ++ L ++ e ++ (ins n1 t1).text ++ (C ++ z)) := by
  have := before_last (ins_ok hn ht) (l := [(P, B), (d, L)]) (u := e) (a := C) (rest := z) rfl
    (by intro q hq; simp only [List.mem_cons, List.not_mem_nil, or_false] at hq; rcases hq with rfl | rfl; exact ⟨hB, bB⟩; exact ⟨hL, bL⟩)
    hC bC hr (by simp only [joined, List.append_assoc]) hf
  simp only [joined, List.append_assoc] at this ⊢
  exact this

theorem step_argument (ht : t2 ≠ []) (hB : B ≠ []) (hL : L ≠ []) (hC : C ≠ []) (hS : S ≠ []) (bB : NotBefore B P) (bL : NotBefore L d)
    (bC : NotBefore C e) (bS : NotBefore S h) (sC : '/' ∉ C) (mC : ¬ C <:+: (ins n1 t1).text) (hr : ¬ B <:+: i)
    (hf : ¬ tagOf n2 <:+: P ++ B ++ d ++ L ++ e ++ (ins n1 t1).text ++ (C ++ h ++ S ++ i)) :
    updateContent (P ++ B ++ d ++ L ++ e ++ (ins n1 t1).text ++ (C ++ h ++ S ++ i)) (bm n2) (em n2) [B, L, C, S] 3 .replace t2 =
      some (P ++ B ++ d ++ L ++ e ++ (ins n1 t1).text ++ (C ++ h ++ (Mark.region n2.toList S t2).text ++ i)) := by
  have hb : NotBefore C (e ++ (ins n1 t1).text) := by
    have := notBefore_ins (x := e) (y := []) sC (slashed_ins n1 t1) mC (by simpa using bC)
    simpa using this
  have := replace_last (label := n2) ht (l := [(P, B), (d, L), (e ++ (ins n1 t1).text, C)]) (u := h) (a := S) (rest := i) rfl
    (by
      intro q hq
      simp only [List.mem_cons, List.not_mem_nil, or_false] at hq
      rcases hq with rfl | rfl | rfl
      · exact ⟨hB, bB⟩
      · exact ⟨hL, bL⟩
      · exact ⟨hC, hb⟩)
    hS bS hr (by simp only [joined, List.append_assoc]) hf
  simp only [joined, List.append_assoc] at this ⊢
  exact this

theorem step_infiles (ht : t3 ≠ []) (hB : B ≠ []) (hL : L ≠ []) (hR : R ≠ []) (hI : I ≠ []) (bB : NotBefore B P) (bL : NotBefore L d)
    (bR : NotBefore R e) (bI : NotBefore I f) (hr : ¬ B <:+: z) (hf : ¬ tagOf n3 <:+: P ++ B ++ d ++ L ++ e ++ R ++ f ++ I ++ z) :
    updateContent (P ++ B ++ d ++ L ++ e ++ R ++ f ++ I ++ z) (bm n3) (em n3) [B, L, R, I] 3 .replace t3 =
      some (P ++ B ++ d ++ L ++ e ++ R ++ f ++ (Mark.region n3.toList I t3).text ++ z) := by
  have := replace_last (label := n3) ht (l := [(P, B), (d, L), (e, R)]) (u := f) (a := I) (rest := z) rfl
    (by
      intro q hq
      simp only [List.mem_cons, List.not_mem_nil, or_false] at hq
      rcases hq with rfl | rfl | rfl
      · exact ⟨hB, bB⟩
      · exact ⟨hL, bL⟩
      · exact ⟨hR, bR⟩)
    hI bI hr (by simp only [joined, List.append_assoc]) hf
  simp only [joined, List.append_assoc] at this ⊢
  exact this

theorem step_infiles25 (ht : t3 ≠ []) (hB : B ≠ []) (hL : L ≠ []) (hI : I ≠ []) (bB : NotBefore B P) (bL : NotBefore L d)
    (bI : NotBefore I e) (hr : ¬ B <:+: z) (hf : ¬ tagOf n3 <:+: P ++ B ++ d ++ L ++ e ++ I ++ z) :
    updateContent (P ++ B ++ d ++ L ++ e ++ I ++ z) (bm n3) (em n3) [B, L, I] 2 .replace t3 =
      some (P ++ B ++ d ++ L ++ e ++ (Mark.region n3.toList I t3).text ++ z) := by
  have := replace_last (label := n3) ht (l := [(P, B), (d, L)]) (u := e) (a := I) (rest := z) rfl
    (by intro q hq; simp only [List.mem_cons, List.not_mem_nil, or_false] at hq; rcases hq with rfl | rfl; exact ⟨hB, bB⟩; exact ⟨hL, bL⟩)
    hI bI hr (by simp only [joined, List.append_assoc]) hf
  simp only [joined, List.append_assoc] at this ⊢
  exact this

theorem step_infiles26 (ht : t3 ≠ []) (hB : B ≠ []) (hI : I ≠ []) (bB : NotBefore B P)
    (bI : NotBefore I d) (hr : ¬ B <:+: z) (hf : ¬ tagOf n3 <:+: P ++ B ++ d ++ I ++ z) :
    updateContent (P ++ B ++ d ++ I ++ z) (bm n3) (em n3) [B, I] 1 .replace t3 =
      some (P ++ B ++ d ++ (Mark.region n3.toList I t3).text ++ z) := by
  have := replace_last (label := n3) ht (l := [(P, B)]) (u := d) (a := I) (rest := z) rfl
    (by intro q hq; simp only [List.mem_cons, List.not_mem_nil, or_false] at hq; rcases hq with rfl; exact ⟨hB, bB⟩)
    hI bI hr (by simp only [joined, List.append_assoc]) hf
  simp only [joined, List.append_assoc] at this ⊢
  exact this

theorem step_sum (hn : Named n4) (ht : t4 ≠ []) (h1 : K1 ≠ []) (h2 : K2 ≠ []) (b1 : NotBefore K1 a) (b2 : NotBefore K2 b)
    (hr : ¬ K1 <:+: z) (hf : ¬ tagOf n4 <:+: a ++ K1 ++ b ++ K2 ++ z) :
    updateContent (a ++ K1 ++ b ++ K2 ++ z) (bm n4) (em n4) [K1, K2] 1 .after t4 =
      some (a ++ K1 ++ b ++ K2 ++ (ins n4 t4).text ++ z) := by
  have := after_last (ins_ok hn ht) (l := [(a, K1)]) (u := b) (a := K2) (rest := z) rfl
    (by intro q hq; simp only [List.mem_cons, List.not_mem_nil, or_false] at hq; rcases hq with rfl; exact ⟨h1, b1⟩)
    h2 b2 hr (by simp only [joined, List.append_assoc]) hf
  simp only [joined, List.append_assoc] at this ⊢
  exact this

end
end Verif.Instrument.GoCmd
