/-
C102: edits of a text with several marks, for any anchors.
-/
import Verif.Instrument.PatchUpdateProps

namespace Verif.Instrument.GoHooks
open Verif.Text Verif.Instrument.PatchText Verif.Instrument.PatchText.Spec

/-- A mark, seen from outside: a comment at both ends. -/
def Slashed (M : Str) : Prop := ∃ z, M = '/' :: z ++ ['/']

theorem free2 {w x M y : Str} (hw : '/' ∉ w) (hM : Slashed M) (hm : ¬ w <:+: M) (hx : ¬ w <:+: x) (hy : ¬ w <:+: y) :
    ¬ w <:+: x ++ M ++ y := by
  obtain ⟨z, rfl⟩ := hM
  have e : x ++ ('/' :: z ++ ['/']) ++ y = x ++ '/' :: (z ++ '/' :: y) := by simp
  rw [e]
  refine free_last hw hx (free_last hw ?_ hy)
  exact not_infix_sub hm ⟨['/'], ['/'], rfl⟩

theorem infix_left {x y : Str} : x <:+: x ++ y := (List.prefix_append x y).isInfix
theorem infix_right {x y : Str} : y <:+: x ++ y := (List.suffix_append x y).isInfix

theorem dropLast_app {x y : Str} (h : y ≠ []) : (x ++ y).dropLast = x ++ y.dropLast := by
  rw [List.dropLast_append_of_ne_nil h]

theorem notBefore_ins {w x M y : Str} (hw : '/' ∉ w) (hM : Slashed M) (hm : ¬ w <:+: M) (h : NotBefore w (x ++ y)) :
    NotBefore w (x ++ M ++ y) := by
  have hne : w ≠ [] := by rintro rfl; exact hm List.nil_infix
  unfold NotBefore at h ⊢
  rw [List.append_assoc, dropLast_app (by simp [hne])] at h ⊢
  exact free2 hw hM hm (not_infix_sub h infix_left) (not_infix_sub h infix_right)

/-- Pieces and marks between them. -/
def marked : List (Str × Str) → Str → Str
  | [], r => r
  | (p, M) :: l, r => p ++ M ++ marked l r

theorem free_marked {w : Str} (hw : '/' ∉ w) : ∀ (l : List (Str × Str)) (r : Str), (∀ p ∈ l, Slashed p.2 ∧ ¬ w <:+: p.2 ∧ ¬ w <:+: p.1) →
    ¬ w <:+: r → ¬ w <:+: marked l r
  | [], _, _, hr => hr
  | (p, M) :: l, r, h, hr => by
    have hp := h (p, M) (List.mem_cons_self ..)
    exact free2 hw hp.1 hp.2.1 hp.2.2 (free_marked hw l r (fun q hq => h q (List.mem_cons_of_mem _ hq)) hr)

theorem not_occurs {rest a : Str} {seq : List Str} (h : ¬ a <:+: rest) : ¬ Occurs rest (a :: seq) := by
  rintro ⟨parts, r, rfl, e⟩
  cases parts with
  | nil => cases e
  | cons p l =>
    injection e with e1 _
    refine h ?_
    rw [← e1]
    exact ⟨p.1, joined l r, rfl⟩

/-- An edit that inserts `M = b t e`. `tag` is the part of `b` by which it is recognised. -/
structure Ins (b e t tag M : Str) : Prop where
  nb : b ≠ []
  ne : e ≠ []
  nt : t ≠ []
  isTag : tag <:+: b
  slash : '/' ∉ tag
  text : M = b ++ t ++ e
  slashed : Slashed M

theorem Ins.after {b e t tag M : Str} (hi : Ins b e t tag M) {content rest u a k : Str} {seq : List Str} {l1 l2 : List (Str × Str)}
    (h : Anchored content (k :: seq) (l1 ++ (u, a) :: l2) rest) (hu : ¬ k <:+: rest) (hf : ¬ tag <:+: content) :
    updateContent content b e (k :: seq) l1.length .after t = some (joined l1 u ++ a ++ M ++ joined l2 rest) := by
  rw [hi.text]
  exact (C26_insert content rest u a _ l1 l2 h (not_occurs hu) b e t hi.nb hi.ne (fun hc => hf (hi.isTag.trans hc)) hi.nt).2.1

theorem Ins.before {b e t tag M : Str} (hi : Ins b e t tag M) {content rest u a k : Str} {seq : List Str} {l1 l2 : List (Str × Str)}
    (h : Anchored content (k :: seq) (l1 ++ (u, a) :: l2) rest) (hu : ¬ k <:+: rest) (hf : ¬ tag <:+: content) :
    updateContent content b e (k :: seq) l1.length .before t = some (joined l1 u ++ M ++ a ++ joined l2 rest) := by
  rw [hi.text]
  exact (C26_insert content rest u a _ l1 l2 h (not_occurs hu) b e t hi.nb hi.ne (fun hc => hf (hi.isTag.trans hc)) hi.nt).2.2.1

theorem replaceAt {b e t tag M o c : Str} (hb : b ≠ []) (he : e ≠ []) (ht : t ≠ []) (htag : tag <:+: b) {content rest u a k : Str}
    {seq : List Str} {l1 l2 : List (Str × Str)} (ho : o = "/*old:".toList) (hcl : c = "*/".toList) (hM : M = b ++ o ++ a ++ c ++ t ++ e)
    (h : Anchored content (k :: seq) (l1 ++ (u, a) :: l2) rest) (hu : ¬ k <:+: rest) (hf : ¬ tag <:+: content) :
    updateContent content b e (k :: seq) l1.length .replace t = some (joined l1 u ++ M ++ joined l2 rest) := by
  rw [hM, ho, hcl]
  exact (C26_insert content rest u a _ l1 l2 h (not_occurs hu) b e t hb he (fun hc => hf (htag.trans hc)) ht).2.2.2

/-- `\n` as the last anchor. -/
theorem nl_split {s : Str} (h : '\n' ∈ s) : ∃ x y, s = x ++ ['\n'] ++ y ∧ NotBefore ['\n'] x := by
  obtain ⟨x, y, rfl, hx⟩ := List.eq_append_cons_of_mem h
  exact ⟨x, y, by simp, by
    unfold NotBefore
    rw [List.dropLast_concat]
    exact fun hc => hx (hc.subset (List.mem_singleton_self _))⟩

end Verif.Instrument.GoHooks
