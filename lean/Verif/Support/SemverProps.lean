/-
C29: semantic versions.
-/
import Verif.Support.Semver
import Verif.Support.SemverSpec

namespace Verif.Support.Semver
open Spec

/-! ### Characters -/

theorem isIdentChar_iff (c : Char) : isIdentChar c = true ↔ IdentChar c := by
  unfold isIdentChar IdentChar Char.isAlphanum Char.isAlpha Char.isUpper Char.isLower Char.isDigit
  simp [UInt32.le_iff_toNat_le]

theorem isDig_isDigit (c : Char) : isDig c = c.isDigit := by
  rw [Bool.eq_iff_iff, isDig_iff]
  simp [Char.isDigit, UInt32.le_iff_toNat_le]

theorem digit_identChar {c : Char} (h : isDig c = true) : isIdentChar c = true := by
  rw [isDig_iff] at h
  unfold isIdentChar
  simp [h.1, h.2]

theorem identChar_ne_dot {c : Char} (h : isIdentChar c = true) : c ≠ '.' := by
  rintro rfl; exact absurd h (by decide)

theorem identChar_ne_plus {c : Char} (h : isIdentChar c = true) : c ≠ '+' := by
  rintro rfl; exact absurd h (by decide)

/-! ### Numerals -/

theorem parseInt_some {v t r : Str} (h : parseInt v = some (t, r)) :
    v = t ++ r ∧ Canonical t := by
  unfold parseInt at h
  cases v with
  | nil => cases h
  | cons c v =>
    simp only at h
    split at h
    · cases h
    · rename_i hd
      have hd : isDig c = true := by simpa using hd
      split at h
      · cases h
      · rename_i hz
        cases h
        refine ⟨(List.takeWhile_append_dropWhile ..).symm, ?_, ?_, ?_⟩
        · rw [List.takeWhile_cons_of_pos hd]; simp
        · intro x hx
          exact List.all_eq_true.1 List.all_takeWhile x hx
        · intro hh
          rw [List.takeWhile_cons_of_pos hd] at hh
          simp only [List.head?_cons, Option.some.injEq] at hh
          simp only [not_and, Decidable.not_not] at hz
          exact hz hh

theorem takeWhile_append' {p : Char → Bool} {t r : Str} (ht : ∀ c ∈ t, p c = true)
    (hr : ∀ c, r.head? = some c → p c = false) :
    (t ++ r).takeWhile p = t ∧ (t ++ r).dropWhile p = r := by
  induction t with
  | nil =>
    cases r with
    | nil => exact ⟨rfl, rfl⟩
    | cons c r =>
      have := hr c rfl
      simp [List.takeWhile_cons, List.dropWhile_cons, this]
  | cons c t ih =>
    have hc := ht c (by simp)
    obtain ⟨h1, h2⟩ := ih fun d hd => ht d (by simp [hd])
    simp only [List.cons_append]
    rw [List.takeWhile_cons_of_pos hc, List.dropWhile_cons_of_pos hc, h1, h2]
    exact ⟨rfl, rfl⟩

theorem parseInt_append {t r : Str} (ht : Canonical t) (hr : ∀ c, r.head? = some c → isDig c = false) :
    parseInt (t ++ r) = some (t, r) := by
  obtain ⟨h1, h2, h3⟩ := ht
  obtain ⟨e1, e2⟩ := takeWhile_append' h2 hr
  cases t with
  | nil => exact absurd rfl h1
  | cons c t =>
    unfold parseInt
    rw [e1, e2]
    simp only [List.cons_append]
    rw [if_neg (by simp [h2 c (by simp)]), if_neg]
    rintro ⟨hc, hl⟩
    exact hl (h3 (by simp [hc]))

theorem head_dot (s : Str) : ∀ c, ('.' :: s).head? = some c → isDig c = false := by
  intro c h; simp at h; subst h; decide

/-! ### Identifiers -/

/-- A good identifier text for the code. -/
def Good (w : Str) : Prop := w ≠ [] ∧ (∀ c ∈ w, isIdentChar c = true) ∧ isBadNum w = false

theorem good_text {i : Ident} (h : i.WF) : Good i.text := by
  cases i with
  | num n =>
    obtain ⟨h1, h2, h3⟩ := canonical_toDigits n
    refine ⟨h1, fun c hc => digit_identChar (h2 c hc), ?_⟩
    simp only [isBadNum, Ident.text]
    by_cases hz : (Nat.toDigits 10 n).head? = some '0'
    · simp [h3 hz]
    · simp [hz]
  | word s =>
    obtain ⟨h1, h2, c, hc, hcd⟩ := h
    refine ⟨h1, fun c hc => (isIdentChar_iff c).2 (h2 c hc), ?_⟩
    have : s.all isDig = false := by
      rw [List.all_eq_false]
      exact ⟨c, hc, by rw [isDig_isDigit, hcd]; simp⟩
    simp [isBadNum, Ident.text, this]

theorem isNum_text {i : Ident} (h : i.WF) : isNum i.text = (match i with | .num _ => true | .word _ => false) := by
  cases i with
  | num n =>
    simp only [isNum, Ident.text, List.all_eq_true]
    exact fun c hc => digit_toDigits hc
  | word s =>
    obtain ⟨h1, h2, c, hc, hcd⟩ := h
    simp only [isNum, Ident.text]
    rw [List.all_eq_false]
    exact ⟨c, hc, by rw [isDig_isDigit, hcd]; simp⟩

theorem good_ident {w : Str} (h : Good w) : ∃ i : Ident, i.WF ∧ i.text = w := by
  obtain ⟨h1, h2, h3⟩ := h
  by_cases hn : w.all isDig = true
  · refine ⟨.num (val w), trivial, toDigits_val ⟨h1, fun c hc => List.all_eq_true.1 hn c hc, ?_⟩⟩
    intro hz
    simp only [isBadNum, hn, hz, Bool.true_and, BEq.rfl, Bool.and_true, decide_eq_false_iff_not] at h3
    have := List.length_pos_iff.2 h1
    omega
  · refine ⟨.word w, ⟨h1, fun c hc => (isIdentChar_iff c).1 (h2 c hc), ?_⟩, rfl⟩
    have : w.all isDig = false := by simpa using hn
    rw [List.all_eq_false] at this
    obtain ⟨c, hc, hd⟩ := this
    refine ⟨c, hc, ?_⟩
    rw [← isDig_isDigit]; simpa using hd

theorem text_inj {i j : Ident} (hi : i.WF) (hj : j.WF) (h : i.text = j.text) : i = j := by
  have h1 := isNum_text hi
  have h2 := isNum_text hj
  rw [h, h2] at h1
  cases i with
  | num m => cases j with
    | num n =>
      have := congrArg val h
      simp only [Ident.text, val, Nat.ofDigitChars_ten_toDigits] at this
      rw [this]
    | word s => cases h1
  | word s => cases j with
    | num n => cases h1
    | word t => simp only [Ident.text] at h; rw [h]

/-- The code's comparison of different identifiers is the specified precedence. -/
theorem cmpIdent_eq {i j : Ident} (hi : i.WF) (hj : j.WF) (hne : i.text ≠ j.text) :
    cmpIdent i.text j.text = sgn (i.prec j) := by
  unfold cmpIdent
  rw [isNum_text hi, isNum_text hj]
  cases i with
  | num m => cases j with
    | num n =>
      simp only [ne_eq, not_true_eq_false, if_false, true_and]
      have := cmpInt_toDigits m n
      unfold cmpInt at this
      simp only [Ident.text] at hne ⊢
      rw [if_neg hne] at this
      exact this
    | word s => rfl
  | word s => cases j with
    | num n => rfl
    | word t =>
      simp only [ne_eq, not_true_eq_false, if_false, Bool.false_eq_true, false_and, Ident.text, Ident.prec]
      unfold strLt
      simp only [Ident.text] at hne
      have hne' : compare s t ≠ .eq := fun h => hne (Std.LawfulEqOrd.eq_of_compare h)
      have hall : ∀ o : Ordering, o ≠ .eq → (if (o == .lt) = true then (-1 : Int) else 1) = sgn o := by
        intro o ho
        cases o
        · rfl
        · exact absurd rfl ho
        · rfl
      exact hall _ hne'

theorem prec_self (i : Ident) : i.prec i = .eq := by
  cases i with
  | num n => exact Nat.compare_eq_eq.2 rfl
  | word s => exact Std.ReflCmp.compare_self (cmp := (compare : List Char → List Char → Ordering))

/-! ### Dot separated lists -/

/-- What follows an identifier. -/
def tl (ws : List Str) : Str := if ws = [] then [] else '.' :: dots ws

theorem dots_cons (w : Str) (ws : List Str) : dots (w :: ws) = w ++ tl ws := by
  cases ws with
  | nil => simp [dots, tl]
  | cons => simp [dots, tl]

theorem nextIdent_dots {w : Str} (hw : Good w) (ws : List Str) : nextIdent (dots (w :: ws)) = (w, tl ws) := by
  rw [dots_cons]
  unfold nextIdent
  have := takeWhile_append' (p := (· != '.')) (t := w) (r := tl ws)
    (fun c hc => by simpa using identChar_ne_dot (hw.2.1 c hc))
    (by
      intro c hc
      unfold tl at hc
      split at hc
      · cases hc
      · simp at hc; subst hc; rfl)
  rw [this.1, this.2]

theorem tl_length {ws : List Str} (h : ∀ w ∈ ws, Good w) : 2 * ws.length ≤ (tl ws).length := by
  induction ws with
  | nil => simp [tl]
  | cons w ws ih =>
    have := ih fun x hx => h x (by simp [hx])
    have hw := List.length_pos_iff.2 (h w (by simp)).1
    have e : tl (w :: ws) = '.' :: (w ++ tl ws) := by simp [tl, dots_cons]
    rw [e]
    simp only [List.length_cons, List.length_append]
    omega

/-- The comparison loop is the lexicographic comparison of the identifier lists. -/
theorem cmpPreLoop_eq : ∀ (ws us : List Ident), (∀ i ∈ ws, i.WF) → (∀ i ∈ us, i.WF) → ws ≠ us →
    ∀ (fuel : Nat) (c d : Char), ws.length ≤ fuel →
    cmpPreLoop fuel (if ws = [] then [] else c :: dots (ws.map Ident.text))
      (if us = [] then [] else d :: dots (us.map Ident.text)) = sgn (List.compareLex Ident.prec ws us) := by
  intro ws
  induction ws with
  | nil =>
    intro us _ _ hne fuel c d _
    have h0 : ∀ y, cmpPreLoop fuel [] y = -1 := by
      intro y; cases fuel <;> simp [cmpPreLoop]
    rw [if_pos rfl, h0]
    cases us with
    | nil => exact absurd rfl hne
    | cons => rfl
  | cons i ws ih =>
    intro us hi hu hne fuel c d hf
    cases fuel with
    | zero => simp at hf
    | succ fuel =>
      rw [if_neg (by simp)]
      cases us with
      | nil => simp [cmpPreLoop, List.compareLex, sgn]
      | cons j us =>
        rw [if_neg (by simp), cmpPreLoop, if_pos (by simp)]
        simp only [List.tail_cons, List.map_cons]
        have wi := hi i (by simp)
        have wj := hu j (by simp)
        rw [nextIdent_dots (good_text wi), nextIdent_dots (good_text wj)]
        rw [List.compareLex_cons_cons]
        by_cases he : i.text = j.text
        · rw [if_neg (by simpa using he)]
          have hij := text_inj wi wj he
          subst hij
          rw [prec_self, Ordering.eq_then]
          have := ih us (fun k hk => hi k (by simp [hk])) (fun k hk => hu k (by simp [hk]))
            (fun h => hne (by rw [h])) fuel '.' '.' (by simpa using hf)
          rw [← this]
          simp only [tl, List.map_eq_nil_iff]
        · rw [if_pos he, cmpIdent_eq wi wj he]
          have hp : i.prec j ≠ .eq := by
            intro h
            apply he
            cases i with
            | num m => cases j with
              | num n => rw [show m = n from Nat.compare_eq_eq.1 h]
              | word s => cases h
            | word s => cases j with
              | num n => cases h
              | word t => rw [show s = t from Std.LawfulEqOrd.eq_of_compare h]
          cases hh : i.prec j
          · rfl
          · exact absurd hh hp
          · rfl

theorem dots_length {ws : List Str} (h : ∀ w ∈ ws, Good w) : ws.length ≤ (dots ws).length := by
  cases ws with
  | nil => simp
  | cons w ws =>
    rw [dots_cons, List.length_append]
    have := tl_length fun x hx => h x (List.mem_cons_of_mem w hx)
    have hw := List.length_pos_iff.2 (h w (by simp)).1
    simp only [List.length_cons]
    omega

theorem dots_inj : ∀ {ws us : List Str}, (∀ w ∈ ws, Good w) → (∀ w ∈ us, Good w) → ws ≠ [] → us ≠ [] →
    dots ws = dots us → ws = us := by
  intro ws
  induction ws with
  | nil => intro us _ _ h; exact absurd rfl h
  | cons w ws ih =>
    intro us hw hu _ hne h
    cases us with
    | nil => exact absurd rfl hne
    | cons u us =>
      have h1 := nextIdent_dots (hw w (by simp)) ws
      rw [h, nextIdent_dots (hu u (by simp)) us] at h1
      simp only [Prod.mk.injEq] at h1
      obtain ⟨rfl, h2⟩ := h1
      congr 1
      cases ws with
      | nil => cases us with
        | nil => rfl
        | cons => simp [tl] at h2
      | cons w2 ws => cases us with
        | nil => simp [tl] at h2
        | cons u2 us =>
          refine (ih (fun x hx => hw x (by simp [hx])) (fun x hx => hu x (by simp [hx])) (by simp) (by simp) ?_)
          simp [tl] at h2
          exact h2.symm

theorem map_text_inj {a b : List Ident} (ha : ∀ i ∈ a, i.WF) (hb : ∀ i ∈ b, i.WF)
    (h : a.map Ident.text = b.map Ident.text) : a = b := by
  induction a generalizing b with
  | nil => cases b with
    | nil => rfl
    | cons => cases h
  | cons i a ih =>
    cases b with
    | nil => cases h
    | cons j b =>
      simp only [List.map_cons, List.cons.injEq] at h
      rw [text_inj (ha i (by simp)) (hb j (by simp)) h.1,
        ih (fun k hk => ha k (by simp [hk])) (fun k hk => hb k (by simp [hk])) h.2]

theorem preText_inj {a b : List Ident} (ha : ∀ i ∈ a, i.WF) (hb : ∀ i ∈ b, i.WF)
    (h : preText a = preText b) : a = b := by
  unfold preText at h
  split at h
  · rename_i h1
    split at h
    · rename_i h2; rw [h1, h2]
    · cases h
  · rename_i h1
    split at h
    · cases h
    · rename_i h2
      simp only [List.cons.injEq, true_and] at h
      have := dots_inj (fun w hw => by
          obtain ⟨i, hi, rfl⟩ := List.mem_map.1 hw; exact good_text (ha i hi))
        (fun w hw => by obtain ⟨i, hi, rfl⟩ := List.mem_map.1 hw; exact good_text (hb i hi))
        (by simpa using h1) (by simpa using h2) h
      exact map_text_inj ha hb this

theorem compareLex_self (a : List Ident) : List.compareLex Ident.prec a a = .eq := by
  induction a with
  | nil => rfl
  | cons i a ih => rw [List.compareLex_cons_cons, prec_self, ih]; rfl

theorem precPre_eq (a b : List Ident) (ha : a ≠ []) (hb : b ≠ []) :
    precPre a b = List.compareLex Ident.prec a b := by
  cases a with
  | nil => exact absurd rfl ha
  | cons => cases b with
    | nil => exact absurd rfl hb
    | cons => rfl

theorem comparePrerelease_eq {a b : List Ident} (ha : ∀ i ∈ a, i.WF) (hb : ∀ i ∈ b, i.WF) :
    comparePrerelease (preText a) (preText b) = sgn (precPre a b) := by
  unfold comparePrerelease
  by_cases hab : a = b
  · subst hab
    rw [if_pos rfl]
    cases a with
    | nil => rfl
    | cons i a => rw [precPre_eq _ _ (by simp) (by simp), compareLex_self]; rfl
  · rw [if_neg fun h => hab (preText_inj ha hb h)]
    by_cases h1 : a = []
    · subst h1
      rw [if_pos (by simp [preText])]
      cases b with
      | nil => exact absurd rfl hab
      | cons => rfl
    · rw [if_neg (by simp [preText, h1])]
      by_cases h2 : b = []
      · subst h2
        rw [if_pos (by simp [preText])]
        cases a with
        | nil => exact absurd rfl h1
        | cons => rfl
      · rw [if_neg (by simp [preText, h2]), precPre_eq a b h1 h2]
        have := cmpPreLoop_eq a b ha hb hab (preText a).length '-' '-' (by
          unfold preText
          rw [if_neg h1]
          have := dots_length (ws := a.map Ident.text) fun w hw => by
            obtain ⟨i, hi, rfl⟩ := List.mem_map.1 hw; exact good_text (ha i hi)
          simp only [List.length_map] at this
          simp only [List.length_cons]
          omega)
        exact this

/-! ### Parsing -/

theorem preLoop_word (w : Str) (hw : ∀ c ∈ w, isIdentChar c = true) : ∀ (cur taken s : Str),
    preLoop cur taken (w ++ s) = preLoop (cur ++ w) (taken ++ w) s := by
  induction w with
  | nil => intro cur taken s; simp
  | cons c w ih =>
    intro cur taken s
    have hc := hw c (by simp)
    rw [List.cons_append, preLoop, if_neg (identChar_ne_plus hc), if_neg (by simp [hc]),
      if_neg (identChar_ne_dot hc), ih fun d hd => hw d (by simp [hd])]
    simp

theorem preLoop_dots : ∀ (ws : List Str), ws ≠ [] → (∀ w ∈ ws, Good w) → ∀ (taken r : Str),
    (r = [] ∨ ∃ r', r = '+' :: r') → preLoop [] taken (dots ws ++ r) = some (taken ++ dots ws, r) := by
  intro ws
  induction ws with
  | nil => intro h; exact absurd rfl h
  | cons w ws ih =>
    intro _ hg taken r hr
    have hw := hg w (by simp)
    have hbad : ¬ (w = [] ∨ isBadNum w = true) := by
      rintro (h | h)
      · exact hw.1 h
      · rw [hw.2.2] at h; cases h
    rw [dots_cons, List.append_assoc, preLoop_word w hw.2.1]
    simp only [List.nil_append]
    by_cases hws : ws = []
    · subst hws
      simp only [tl, if_true, List.nil_append, List.append_nil]
      rcases hr with rfl | ⟨r', rfl⟩
      · rw [preLoop, if_neg hbad]
      · rw [preLoop, if_pos rfl, if_neg hbad]
    · simp only [tl, if_neg hws, List.cons_append]
      rw [preLoop, if_neg (by decide), if_neg (by decide), if_pos rfl, if_neg hbad,
        ih hws (fun x hx => hg x (by simp [hx])) _ r hr]
      simp

/-- What an accepted pre-release looks like. -/
theorem preLoop_some : ∀ (s cur taken t r : Str), (∀ c ∈ cur, isIdentChar c = true) →
    preLoop cur taken s = some (t, r) →
    ∃ ws, ws ≠ [] ∧ (∀ w ∈ ws, Good w) ∧ cur ++ s = dots ws ++ r ∧ taken ++ s = t ++ r ∧
      (r = [] ∨ ∃ r', r = '+' :: r') := by
  intro s
  induction s with
  | nil =>
    intro cur taken t r hc h
    rw [preLoop] at h
    split at h
    · cases h
    · rename_i hb
      cases h
      simp only [not_or, Bool.not_eq_true] at hb
      refine ⟨[cur], by simp, ?_, by simp [dots], rfl, Or.inl rfl⟩
      intro w hw
      simp at hw
      subst hw
      exact ⟨hb.1, hc, hb.2⟩
  | cons c s ih =>
    intro cur taken t r hc h
    rw [preLoop] at h
    split at h
    · rename_i hp
      subst hp
      split at h
      · cases h
      · rename_i hb
        cases h
        simp only [not_or, Bool.not_eq_true] at hb
        refine ⟨[cur], by simp, ?_, by simp [dots], rfl, Or.inr ⟨s, rfl⟩⟩
        intro w hw
        simp at hw
        subst hw
        exact ⟨hb.1, hc, hb.2⟩
    · split at h
      · cases h
      · rename_i hid
        split at h
        · rename_i hd
          subst hd
          split at h
          · cases h
          · rename_i hb
            simp only [not_or, Bool.not_eq_true] at hb
            obtain ⟨ws, h1, h2, h3, h4, h5⟩ := ih [] _ t r (by simp) h
            refine ⟨cur :: ws, by simp, ?_, ?_, ?_, h5⟩
            · intro w hw
              rcases List.mem_cons.1 hw with rfl | hw
              · exact ⟨hb.1, hc, hb.2⟩
              · exact h2 w hw
            · rw [dots_cons, tl, if_neg h1, List.append_assoc, List.cons_append, ← h3]; rfl
            · rw [← h4]; simp
        · rename_i hd
          have hic : isIdentChar c = true := by
            simp [hd] at hid
            exact hid
          obtain ⟨ws, h1, h2, h3, h4, h5⟩ := ih (cur ++ [c]) _ t r (by
            intro x hx
            simp at hx
            rcases hx with hx | rfl
            · exact hc x hx
            · exact hic) h
          refine ⟨ws, h1, h2, ?_, ?_, h5⟩
          · rw [← h3]; simp
          · rw [← h4]; simp

theorem buildLoop_iff : ∀ (s : Str) (cur : Str), (∀ c ∈ cur, isIdentChar c = true) →
    (buildLoop cur.isEmpty s = true ↔
      ∃ ws, ws ≠ [] ∧ (∀ w ∈ ws, w ≠ [] ∧ ∀ c ∈ w, isIdentChar c = true) ∧ cur ++ s = dots ws) := by
  intro s
  induction s with
  | nil =>
    intro cur hc
    rw [buildLoop]
    constructor
    · intro h
      refine ⟨[cur], by simp, ?_, by simp [dots]⟩
      intro w hw
      simp at hw
      subst hw
      refine ⟨?_, hc⟩
      rintro rfl
      simp at h
    · rintro ⟨ws, h1, h2, h3⟩
      cases ws with
      | nil => exact absurd rfl h1
      | cons w ws =>
        have := (h2 w (by simp)).1
        rw [dots_cons, List.append_nil] at h3
        cases cur with
        | nil =>
          rw [eq_comm, List.append_eq_nil_iff] at h3
          exact absurd h3.1 this
        | cons => rfl
  | cons c s ih =>
    intro cur hc
    rw [buildLoop]
    by_cases hd : c = '.'
    · subst hd
      rw [if_neg (by decide), if_pos rfl]
      have ih0 := ih [] (by simp)
      simp only [List.isEmpty_nil, List.nil_append] at ih0
      by_cases hcur : cur = []
      · subst hcur
        simp only [List.isEmpty_nil, if_true, List.nil_append]
        constructor
        · intro h; cases h
        · rintro ⟨ws, h1, h2, h3⟩
          exfalso
          cases ws with
          | nil => exact absurd rfl h1
          | cons w ws =>
            obtain ⟨hw1, hw2⟩ := h2 w (by simp)
            rw [dots_cons] at h3
            cases w with
            | nil => exact absurd rfl hw1
            | cons x w =>
              rw [List.cons_append, List.cons.injEq] at h3
              have := hw2 x (by simp)
              rw [← h3.1] at this
              exact absurd this (by decide)
      · rw [if_neg (by simpa using hcur), ih0]
        constructor
        · rintro ⟨ws, h1, h2, h3⟩
          refine ⟨cur :: ws, by simp, ?_, ?_⟩
          · intro w hw
            rcases List.mem_cons.1 hw with rfl | hw
            · exact ⟨hcur, hc⟩
            · exact h2 w hw
          · rw [dots_cons, tl, if_neg h1, h3]
        · rintro ⟨ws, h1, h2, h3⟩
          cases ws with
          | nil => exact absurd rfl h1
          | cons w ws =>
            obtain ⟨hw1, hw2⟩ := h2 w (by simp)
            rw [dots_cons] at h3
            -- both sides are cut at the first dot
            have e1 := takeWhile_append' (p := (· != '.')) (t := cur) (r := '.' :: s)
              (fun x hx => by simpa using identChar_ne_dot (hc x hx)) (by intro x hx; simp at hx; subst hx; rfl)
            have e2 := takeWhile_append' (p := (· != '.')) (t := w) (r := tl ws)
              (fun x hx => by simpa using identChar_ne_dot (hw2 x hx)) (by
                intro x hx
                unfold tl at hx
                split at hx
                · cases hx
                · simp at hx; subst hx; rfl)
            rw [h3] at e1
            have ht : '.' :: s = tl ws := e1.2.symm.trans e2.2
            unfold tl at ht
            split at ht
            · cases ht
            · rename_i hne
              simp only [List.cons.injEq, true_and] at ht
              exact ⟨ws, hne, fun x hx => h2 x (by simp [hx]), ht⟩
    · by_cases hid : isIdentChar c = true
      · rw [if_neg (by simp [hid]), if_neg hd]
        have := ih (cur ++ [c]) (by
          intro x hx
          simp at hx
          rcases hx with hx | rfl
          · exact hc x hx
          · exact hid)
        have he : (cur ++ [c]).isEmpty = false := by cases cur <;> rfl
        rw [he] at this
        rw [this]
        simp only [List.append_assoc, List.cons_append, List.nil_append]
      · rw [if_pos (by simp [hid, hd])]
        constructor
        · intro h; cases h
        · rintro ⟨ws, h1, h2, h3⟩
          exfalso
          -- every character of `dots ws` is an identifier character or a dot
          have hall : ∀ (ws : List Str), (∀ w ∈ ws, w ≠ [] ∧ ∀ c ∈ w, isIdentChar c = true) →
              ∀ x ∈ dots ws, isIdentChar x = true ∨ x = '.' := by
            intro ws
            induction ws with
            | nil => intro _ x hx; cases hx
            | cons w ws ihw =>
              intro hh x hx
              rw [dots_cons] at hx
              simp only [List.mem_append] at hx
              rcases hx with hx | hx
              · exact Or.inl ((hh w (by simp)).2 x hx)
              · unfold tl at hx
                split at hx
                · cases hx
                · simp only [List.mem_cons] at hx
                  rcases hx with hx | hx
                  · exact Or.inr hx
                  · exact ihw (fun y hy => hh y (by simp [hy])) x hx
          have := hall ws h2 c (by rw [← h3]; simp)
          rcases this with h | h
          · exact hid h
          · exact hd h

theorem buildText_iff (s : Str) :
    BuildText s ↔ s = [] ∨ ∃ r, s = '+' :: r ∧ buildLoop true r = true := by
  have h := fun r => buildLoop_iff r [] (by simp)
  simp only [List.isEmpty_nil, List.nil_append] at h
  unfold BuildText
  constructor
  · rintro (h1 | ⟨ws, h1, h2, rfl⟩)
    · exact Or.inl h1
    · refine Or.inr ⟨_, rfl, (h _).2 ⟨ws, h1, fun w hw => ⟨(h2 w hw).1, fun c hc => (isIdentChar_iff c).2 ((h2 w hw).2 c hc)⟩, rfl⟩⟩
  · rintro (h1 | ⟨r, rfl, h2⟩)
    · exact Or.inl h1
    · obtain ⟨ws, h3, h4, h5⟩ := (h r).1 h2
      exact Or.inr ⟨ws, h3, fun w hw => ⟨(h4 w hw).1, fun c hc => (isIdentChar_iff c).1 ((h4 w hw).2 c hc)⟩, by rw [h5]⟩

theorem parseEnd_eq (M m p x : Str) {build : Str} (hb : BuildText build) :
    parseEnd M m p x build = some ⟨M, m, p, x, build⟩ := by
  rw [buildText_iff] at hb
  rcases hb with rfl | ⟨r, rfl, h⟩
  · rfl
  · simp [parseEnd, parseBuild, h]

theorem parseTail_eq {M m p : Str} {pre : List Ident} {build : Str} (hp : ∀ i ∈ pre, i.WF) (hb : BuildText build) :
    parseTail M m p (preText pre ++ build) = some ⟨M, m, p, preText pre, build⟩ := by
  by_cases h : pre = []
  · subst h
    have : preText [] = [] := rfl
    rw [this, List.nil_append, ← parseEnd_eq M m p [] hb]
    rcases (buildText_iff build).1 hb with rfl | ⟨r, rfl, _⟩ <;> rfl
  · have hpt : preText pre = '-' :: dots (pre.map Ident.text) := by simp [preText, h]
    have hr : build = [] ∨ ∃ r', build = '+' :: r' := by
      rcases (buildText_iff build).1 hb with rfl | ⟨r, rfl, _⟩
      · exact Or.inl rfl
      · exact Or.inr ⟨r, rfl⟩
    have hg : ∀ w ∈ pre.map Ident.text, Good w := fun w hw => by
      obtain ⟨i, hi, rfl⟩ := List.mem_map.1 hw; exact good_text (hp i hi)
    have h2 := preLoop_dots (pre.map Ident.text) (by simpa using h) hg ['-'] build hr
    rw [hpt]
    simp only [List.cons_append, parseTail, parsePrerelease, h2]
    exact parseEnd_eq M m p _ hb

theorem parseEnd_some {M m p x w : Str} {q : Parsed} (hw : parseEnd M m p x w = some q) : BuildText w := by
  rw [buildText_iff]
  unfold parseEnd at hw
  split at hw
  · exact Or.inl rfl
  · rename_i r
    right
    refine ⟨r, rfl, ?_⟩
    simp only [parseBuild] at hw
    by_cases hl : buildLoop true r = true
    · exact hl
    · rw [if_neg hl] at hw; cases hw
  · cases hw

theorem parseTail_some {M m p v : Str} {q : Parsed} (h : parseTail M m p v = some q) :
    ∃ pre build, (∀ i ∈ pre, Ident.WF i) ∧ BuildText build ∧ v = preText pre ++ build := by
  unfold parseTail at h
  split at h
  · rename_i r
    split at h
    · cases h
    · rename_i pre v2 heq
      have hbt := parseEnd_some h
      simp only [parsePrerelease] at heq
      obtain ⟨ws, h1, h2, h3, h4, h5⟩ := preLoop_some r [] ['-'] pre v2 (by simp) heq
      have : ∃ is : List Ident, (∀ i ∈ is, i.WF) ∧ is.map Ident.text = ws := by
        clear h1 h3 h4 hbt heq
        induction ws with
        | nil => exact ⟨[], by simp, rfl⟩
        | cons w ws ih =>
          obtain ⟨is, i1, i2⟩ := ih fun x hx => h2 x (by simp [hx])
          obtain ⟨i, j1, j2⟩ := good_ident (h2 w (by simp))
          refine ⟨i :: is, ?_, by simp [i2, j2]⟩
          intro k hk
          rcases List.mem_cons.1 hk with rfl | hk
          · exact j1
          · exact i1 k hk
      obtain ⟨is, i1, i2⟩ := this
      refine ⟨is, v2, i1, hbt, ?_⟩
      have hne : is ≠ [] := by rintro rfl; exact h1 i2.symm
      simp only [List.nil_append] at h3
      rw [preText, if_neg hne, i2, h3]; rfl
  · exact ⟨[], v, by simp, parseEnd_some h, rfl⟩

theorem text_parse {s : Str} {v : Version} (h : Text s v) : v.WF ∧ ∃ build, parseSemver s =
    some ⟨Nat.toDigits 10 v.major, Nat.toDigits 10 v.minor, Nat.toDigits 10 v.patch, preText v.pre, build⟩ := by
  cases h with
  | full v build hv hb =>
    refine ⟨hv, build, ?_⟩
    have hdig : ∀ c, (preText v.pre ++ build).head? = some c → isDig c = false := by
      intro c hc
      rcases (buildText_iff build).1 hb with rfl | ⟨r, rfl, _⟩
      · unfold preText at hc
        split at hc
        · cases hc
        · simp at hc; subst hc; decide
      · unfold preText at hc
        split at hc
        · simp at hc; subst hc; decide
        · simp at hc; subst hc; decide
    simp only [List.cons_append, List.append_assoc]
    unfold parseSemver
    simp only
    rw [parseInt_append (canonical_toDigits v.major) (head_dot _)]
    simp only
    rw [parseInt_append (canonical_toDigits v.minor) (head_dot _)]
    simp only
    rw [parseInt_append (canonical_toDigits v.patch) hdig]
    simp only
    exact parseTail_eq hv hb
  | short2 M m =>
    refine ⟨by intro i hi; simp at hi, [], ?_⟩
    have := parseInt_append (t := Nat.toDigits 10 m) (r := []) (canonical_toDigits m) (by simp)
    rw [List.append_nil] at this
    simp only [List.cons_append]
    unfold parseSemver
    simp only
    rw [parseInt_append (canonical_toDigits M) (head_dot _)]
    simp only
    rw [this]
    rfl
  | short1 M =>
    refine ⟨by intro i hi; simp at hi, [], ?_⟩
    have := parseInt_append (t := Nat.toDigits 10 M) (r := []) (canonical_toDigits M) (by simp)
    rw [List.append_nil] at this
    unfold parseSemver
    simp only
    rw [this]
    rfl

/-! ### The properties -/

/-- **C29** (validity) A string is accepted iff it is a text of some version. -/
theorem C29_valid_iff (s : Str) : isValidSemVer s = true ↔ ∃ v, Text s v := by
  unfold isValidSemVer
  constructor
  · intro h
    unfold parseSemver at h
    split at h
    · rename_i v
      split at h
      · cases h
      · rename_i major r1 h1
        obtain ⟨rfl, c1⟩ := parseInt_some h1
        split at h
        · refine ⟨⟨val major, 0, 0, []⟩, ?_⟩
          have := Text.short1 (val major)
          rw [toDigits_val c1] at this
          simpa using this
        · rename_i r1
          split at h
          · cases h
          · rename_i minor r2 h2
            obtain ⟨rfl, c2⟩ := parseInt_some h2
            split at h
            · refine ⟨⟨val major, val minor, 0, []⟩, ?_⟩
              have := Text.short2 (val major) (val minor)
              rw [toDigits_val c1, toDigits_val c2] at this
              simpa using this
            · rename_i r2
              split at h
              · cases h
              · rename_i patch r3 h3
                obtain ⟨rfl, c3⟩ := parseInt_some h3
                obtain ⟨q, hq⟩ := Option.isSome_iff_exists.1 h
                obtain ⟨pre, build, hp, hb, rfl⟩ := parseTail_some hq
                refine ⟨⟨val major, val minor, val patch, pre⟩, ?_⟩
                have := Text.full ⟨val major, val minor, val patch, pre⟩ build hp hb
                rw [toDigits_val c1, toDigits_val c2, toDigits_val c3] at this
                simpa using this
            · cases h
        · cases h
    · cases h
  · rintro ⟨v, h⟩
    obtain ⟨_, b, hb⟩ := text_parse h
    rw [hb]; rfl

/-- **C29** (precedence) On texts of versions, `CompareSemVer` returns the sign of the semver precedence, with
    numbers compared numerically and build metadata ignored. -/
theorem C29_compare {a b : Str} {v w : Version} (ha : Text a v) (hb : Text b w) :
    compareSemVer a b = sgn (prec v w) := by
  obtain ⟨hv, x, hx⟩ := text_parse ha
  obtain ⟨hw, y, hy⟩ := text_parse hb
  unfold compareSemVer
  rw [hx, hy]
  simp only [cmpParsed, cmpInt_toDigits, comparePrerelease_eq hv hw, prec, sgn_then]

/-- **C29** Invalid strings are all equal and before every valid one. -/
theorem C29_invalid (a b : Str) :
    (isValidSemVer a = false → isValidSemVer b = false → compareSemVer a b = 0) ∧
    (isValidSemVer a = false → isValidSemVer b = true → compareSemVer a b = -1) ∧
    (isValidSemVer a = true → isValidSemVer b = false → compareSemVer a b = 1) := by
  unfold isValidSemVer compareSemVer
  cases parseSemver a <;> cases parseSemver b <;> simp

instance : Std.TransCmp Ident.prec where
  eq_swap {a b} := by
    cases a <;> cases b
    · exact Std.OrientedOrd.eq_swap
    · rfl
    · rfl
    · exact Std.OrientedOrd.eq_swap
  isLE_trans {a b c} h1 h2 := by
    cases a <;> cases b <;> cases c <;> simp only [Ident.prec] at h1 h2 ⊢
    · exact Std.TransOrd.isLE_trans h1 h2
    · rfl
    · cases h2
    · rfl
    · cases h1
    · cases h1
    · cases h2
    · exact Std.TransOrd.isLE_trans h1 h2

instance : Std.TransCmp precPre where
  eq_swap {a b} := by
    cases a <;> cases b
    · rfl
    · rfl
    · rfl
    · exact Std.OrientedCmp.eq_swap (cmp := List.compareLex Ident.prec)
  isLE_trans {a b c} h1 h2 := by
    cases a <;> cases b <;> cases c
    all_goals first
      | rfl
      | (cases h1; done)
      | (cases h2; done)
      | exact Std.TransCmp.isLE_trans (cmp := List.compareLex Ident.prec) h1 h2

theorem prec_trans : Std.TransCmp prec := by
  have : prec = compareLex (compareOn Version.major) (compareLex (compareOn Version.minor)
      (compareLex (compareOn Version.patch) (fun a b => precPre a.pre b.pre))) := rfl
  rw [this]
  have h : Std.TransCmp (fun a b : Version => precPre a.pre b.pre) :=
    { eq_swap := Std.OrientedCmp.eq_swap (cmp := precPre)
      isLE_trans := Std.TransCmp.isLE_trans (cmp := precPre) }
  infer_instance

theorem valid_cases (s : Str) : (∃ v, Text s v) ∨ isValidSemVer s = false := by
  by_cases h : isValidSemVer s = true
  · exact Or.inl ((C29_valid_iff s).1 h)
  · exact Or.inr (by simpa using h)

/-- **C29** (total preorder) Over all strings: the result is -1, 0 or 1; a string equals itself; swapping the
    arguments changes the sign; and `≤` is transitive. -/
theorem C29_total_preorder (a b c : Str) :
    (compareSemVer a b = -1 ∨ compareSemVer a b = 0 ∨ compareSemVer a b = 1) ∧
    compareSemVer a a = 0 ∧
    compareSemVer b a = - compareSemVer a b ∧
    (compareSemVer a b ≤ 0 → compareSemVer b c ≤ 0 → compareSemVer a c ≤ 0) := by
  have ht := prec_trans
  have hv : ∀ {s v}, Text s v → isValidSemVer s = true := fun h => (C29_valid_iff _).2 ⟨_, h⟩
  refine ⟨?_, ?_, ?_, ?_⟩
  · rcases valid_cases a with ⟨v, ha⟩ | ha <;> rcases valid_cases b with ⟨w, hb⟩ | hb
    · rw [C29_compare ha hb]; cases prec v w <;> decide
    · rw [(C29_invalid a b).2.2 (hv ha) hb]; decide
    · rw [(C29_invalid a b).2.1 ha (hv hb)]; decide
    · rw [(C29_invalid a b).1 ha hb]; decide
  · rcases valid_cases a with ⟨v, ha⟩ | ha
    · rw [C29_compare ha ha, Std.ReflCmp.compare_self (cmp := prec)]; rfl
    · exact (C29_invalid a a).1 ha ha
  · rcases valid_cases a with ⟨v, ha⟩ | ha <;> rcases valid_cases b with ⟨w, hb⟩ | hb
    · rw [C29_compare ha hb, C29_compare hb ha, ← sgn_swap, ← Std.OrientedCmp.eq_swap (cmp := prec)]
    · rw [(C29_invalid a b).2.2 (hv ha) hb, (C29_invalid b a).2.1 hb (hv ha)]
    · rw [(C29_invalid a b).2.1 ha (hv hb), (C29_invalid b a).2.2 (hv hb) ha]; rfl
    · rw [(C29_invalid a b).1 ha hb, (C29_invalid b a).1 hb ha]; rfl
  · rcases valid_cases a with ⟨v, ha⟩ | ha <;> rcases valid_cases b with ⟨w, hb⟩ | hb <;>
      rcases valid_cases c with ⟨x, hc⟩ | hc
    · rw [C29_compare ha hb, C29_compare hb hc, C29_compare ha hc, sgn_le, sgn_le, sgn_le]
      exact Std.TransCmp.isLE_trans
    · rw [(C29_invalid b c).2.2 (hv hb) hc]; intro _ h; exact absurd h (by decide)
    · rw [(C29_invalid a b).2.2 (hv ha) hb]; intro h; exact absurd h (by decide)
    · rw [(C29_invalid a b).2.2 (hv ha) hb]; intro h; exact absurd h (by decide)
    · rw [(C29_invalid a c).2.1 ha (hv hc)]; intro _ _; decide
    · rw [(C29_invalid a c).1 ha hc]; intro _ _; decide
    · rw [(C29_invalid a c).2.1 ha (hv hc)]; intro _ _; decide
    · rw [(C29_invalid a c).1 ha hc]; intro _ _; decide

/-! Examples: `v1.0.0-alpha.9 < v1.0.0-alpha.10 < v1.0.0-alpha.beta < v1.0.0 = v1+…`. -/
example : Text "v1.0.0-alpha.10+x.1".toList ⟨1, 0, 0, [.word "alpha".toList, .num 10]⟩ :=
  Text.full ⟨1, 0, 0, [.word "alpha".toList, .num 10]⟩ "+x.1".toList
    (by
      intro i hi
      simp at hi
      rcases hi with rfl | rfl
      · exact ⟨by decide, by unfold IdentChar; decide, 'a', by decide, by decide⟩
      · trivial)
    (Or.inr ⟨["x".toList, "1".toList], by decide, by unfold IdentChar; decide, by decide⟩)
example : compareSemVer "v1.0.0-alpha.9".toList "v1.0.0-alpha.10".toList = -1 := by decide +kernel
example : compareSemVer "v1.0.0-alpha.10".toList "v1.0.0-alpha.beta".toList = -1 := by decide +kernel
example : compareSemVer "v1.0.0-rc".toList "v1".toList = -1 := by decide +kernel
example : compareSemVer "v1.9.0".toList "v1.10.0+b".toList = -1 := by decide +kernel
example : compareSemVer "1.0.0".toList "v0.0.0-0".toList = -1 := by decide +kernel

end Verif.Support.Semver
