/-
Properties of the parser of full names (C37) and of the table of functions (C38, C55).
-/
import Verif.Runtime.FunctabSpec

namespace Verif.Runtime.Functab
open Spec

/-! ### Full names -/

theorem lastIndex_neg {c : Char} {s : Str} (h : c ∉ s) : lastIndex c s = -1 := by
  induction s with
  | nil => rfl
  | cons x xs ih =>
    rw [List.mem_cons, not_or] at h
    simp [lastIndex, ih h.2, Ne.symm h.1]

theorem lastIndex_ge (c : Char) (s : Str) : -1 ≤ lastIndex c s := by
  induction s with
  | nil => simp [lastIndex]
  | cons x xs ih => 
    unfold lastIndex
    split
    · omega
    · split <;> omega

theorem lastIndex_lt (c : Char) (s : Str) : lastIndex c s < s.length := by
  induction s with
  | nil => simp [lastIndex]
  | cons x xs ih =>
    unfold lastIndex
    simp only [List.length_cons]
    split
    · omega
    · split <;> omega

theorem lastIndex_split {c : Char} (a : Str) {b : Str} (h : c ∉ b) : lastIndex c (a ++ c :: b) = a.length := by
  induction a with
  | nil => simp [lastIndex, lastIndex_neg h]
  | cons x xs ih => simp [lastIndex, ih]

/-- If the character does not occur in the second part, its last index is that in the first part. -/
theorem lastIndex_append {c : Char} (a : Str) {b : Str} (h : c ∉ b) : lastIndex c (a ++ b) = lastIndex c a := by
  induction a with
  | nil => simp [lastIndex, lastIndex_neg h]
  | cons x xs ih => simp [lastIndex, ih]

/-- Last index in the second part. -/
theorem lastIndex_mem {c : Char} (a : Str) {b : Str} (h : c ∈ b) : (a.length : Int) ≤ lastIndex c (a ++ b) := by
  induction a with
  | nil =>
    induction b with
    | nil => simp at h
    | cons x xs ih =>
      simp only [List.length_nil, List.nil_append] at ih ⊢
      unfold lastIndex
      split
      · omega
      · rename_i hneg
        by_cases hx : c ∈ xs
        · exact absurd (ih hx) (by simpa using hneg)
        · rw [List.mem_cons] at h
          rcases h with rfl | h
          · simp
          · exact absurd h hx
  | cons x xs ih =>
    simp only [List.cons_append, List.length_cons]
    unfold lastIndex
    rw [if_pos (by omega)]
    omega

theorem cutBracket_none {s : Str} (h : ∀ c, s.getLast? = some c → c ≠ ']') : cutBracket s = some (s, []) := by
  unfold cutBracket
  rw [if_neg]
  rw [List.isSuffixOf_iff_suffix]
  rintro ⟨r, hr⟩
  exact h ']' (by rw [← hr]; exact List.getLast?_concat) rfl

theorem cutBracket_some (a : Str) {g : Str} (h : '[' ∉ g) : cutBracket (a ++ bracket (some g)) = some (a, g) := by
  unfold cutBracket bracket
  have h1 : "]".toList.isSuffixOf (a ++ ('[' :: g ++ [']'])) = true := by
    rw [List.isSuffixOf_iff_suffix]
    exact ⟨a ++ '[' :: g, by simp⟩
  have h2 : lastIndex '[' (a ++ ('[' :: g ++ [']'])) = a.length := by
    rw [List.cons_append]
    exact lastIndex_split a (by simp [h])
  rw [if_pos h1, h2, if_neg (by omega)]
  simp

theorem bracket_cut (a : Str) (g : Option Str) (hg : ∀ x, g = some x → SimpleArgs x)
    (ha : ∀ c, a.getLast? = some c → c ≠ ']') : cutBracket (a ++ bracket g) = some (a, g.getD []) := by
  cases g with
  | none => simpa [bracket] using cutBracket_none ha
  | some g => exact cutBracket_some a (hg g rfl).2.1

theorem ident_not {n : Str} (h : Ident n) {c : Char} (hc : c ∈ "./[]()*".toList) : c ∉ n :=
  fun hn => h.2 c hn hc

theorem ident_last {n : Str} (h : Ident n) (a : Str) {c : Char} (hl : (a ++ n).getLast? = some c) :
    c ∉ "./[]()*".toList := by
  cases hn : n.getLast? with
  | none => rw [List.getLast?_eq_none_iff] at hn; exact absurd hn h.1
  | some d =>
    rw [List.getLast?_append, hn] at hl
    simp only [Option.some_or, Option.some.injEq] at hl
    rw [← hl]
    exact h.2 d (List.mem_of_getLast? hn)

theorem lastIndex_lastPart {p : Str} (hd : '.' ∉ lastPart p) (hm : '.' ∈ p) :
    lastIndex '.' p < lastIndex '/' p := by
  by_cases hs : '/' ∈ p
  · obtain ⟨a, b, rfl, hb⟩ : ∃ a b, p = a ++ '/' :: b ∧ '/' ∉ b := by
      have hr := List.append_of_mem (List.mem_reverse.2 hs)
      clear hd hm
      induction p with
      | nil => simp at hs
      | cons x xs ih =>
        by_cases hx : '/' ∈ xs
        · obtain ⟨a, b, rfl, hb⟩ := ih hx (List.append_of_mem (List.mem_reverse.2 hx))
          exact ⟨x :: a, b, rfl, hb⟩
        · rw [List.mem_cons] at hs
          rcases hs with rfl | hs
          · exact ⟨[], xs, rfl, hx⟩
          · exact absurd hs hx
    have hlp : lastPart (a ++ '/' :: b) = b := by
      unfold lastPart
      rw [List.reverse_append, List.reverse_cons, List.append_assoc, List.takeWhile_append_of_pos]
      · simp
      · intro c hc
        simp only [decide_eq_true_eq]
        rintro rfl
        exact hb (List.mem_reverse.1 hc)
    rw [hlp] at hd
    rw [lastIndex_split a hb]
    have : lastIndex '.' (a ++ '/' :: b) = lastIndex '.' a := lastIndex_append a (by simp [hd])
    rw [this]
    exact lastIndex_lt '.' a
  · exfalso
    apply hd
    unfold lastPart
    rw [List.mem_reverse]
    have : ∀ l : Str, '/' ∉ l → l.takeWhile (· ≠ '/') = l := by
      intro l hl
      have := List.takeWhile_append_of_pos (p := (· ≠ '/')) (l₁ := l) (l₂ := []) (by
        intro c hc
        simp only [decide_eq_true_eq]
        rintro rfl; exact hl hc)
      simpa using this
    rw [this _ (by simpa using hs)]
    simpa using hm

/-- **C37.** Full names, as the Go runtime reports them, are taken apart correctly, for all package paths, receivers,
    function names and type arguments (type arguments that are not instances of generic types or functions). -/
theorem C37_parse_partial (f : FullName) (hf : f.Valid) :
    parseFuncName f.text = some
      { pkgPath := f.pkg
        recvName := (f.recv.map fun r => r.2.1).getD []
        recvPtr := (f.recv.map fun r => r.1).getD false
        typeGeneric := ((f.recv.bind fun r => r.2.2)).getD []
        funcGeneric := f.args.getD []
        funcName := f.name } := by
  obtain ⟨pkg, recv, name, args⟩ := f
  obtain ⟨hp, hlast, hb, hparen, hname, hrecv, hargs, hm⟩ := hf
  simp only at hp hlast hb hparen hname hrecv hargs hm ⊢
  have hdn : '.' ∉ name := ident_not hname (by decide)
  cases recv with
  | none =>
    have htext : FullName.text ⟨pkg, none, name, args⟩ = (pkg ++ '.' :: name) ++ bracket args := by
      simp [FullName.text]
    have hcut : cutBracket ((pkg ++ '.' :: name) ++ bracket args) = some (pkg ++ '.' :: name, args.getD []) := by
      refine bracket_cut _ args hargs ?_
      intro c hc
      have : pkg ++ '.' :: name = (pkg ++ ['.']) ++ name := by simp
      rw [this] at hc
      have := ident_last hname _ hc
      rintro rfl
      exact this (by decide)
    unfold parseFuncName
    rw [htext]
    simp only [hcut]
    have hdot : lastIndex '.' (pkg ++ '.' :: name) = pkg.length := lastIndex_split pkg hdn
    rw [hdot, if_neg (by omega)]
    simp only [Int.toNat_natCast, List.take_left', List.drop_append, Nat.add_sub_cancel_left]
    have hdrop : List.drop (pkg.length + 1) pkg = [] := List.drop_eq_nil_of_le (by omega)
    simp only [hdrop, List.nil_append, List.drop_succ_cons, List.drop_zero]
    have hns : ¬ ")".toList.isSuffixOf pkg = true := by
      rw [List.isSuffixOf_iff_suffix]
      rintro ⟨r, hr⟩
      exact hparen (by rw [← hr]; simp)
    rw [if_neg hns]
    have hcp : cutBracket pkg = some (pkg, []) := by
      refine cutBracket_none ?_
      rintro c hc rfl
      exact hb (List.mem_of_getLast? hc)
    rw [hcp]
    simp only [splitRecv, List.not_mem_nil, if_false, and_self]
    by_cases hd : '.' ∈ pkg
    · have h1 := lastIndex_lastPart hlast hd
      have h2 : lastIndex '/' pkg ≤ lastIndex '/' (pkg ++ '.' :: name ++ bracket args) := by
        by_cases hsl : '/' ∈ bracket args
        · have := lastIndex_mem (pkg ++ '.' :: name) hsl
          have := lastIndex_lt '/' pkg
          simp only [List.length_append, List.length_cons] at *
          omega
        · rw [lastIndex_append _ hsl, lastIndex_append pkg]
          · exact Int.le_refl _
          · simp [ident_not hname (c := '/') (by decide)]
      rw [if_neg (by have := lastIndex_mem [] hd; simp at this; omega), if_pos (by omega)]
      simp
    · rw [lastIndex_neg hd]
      simp
  | some r =>
    obtain ⟨ptr, t, g⟩ := r
    have hargs' : args = none := hm (by simp)
    subst hargs'
    obtain ⟨ht, hg⟩ := hrecv ptr t g rfl
    have hmeth : ∀ q : Str, cutBracket (q ++ '.' :: name) = some (q ++ '.' :: name, []) := by
      intro q
      refine cutBracket_none ?_
      intro c hc
      have : q ++ '.' :: name = (q ++ ['.']) ++ name := by simp
      rw [this] at hc
      have := ident_last hname _ hc
      rintro rfl
      exact this (by decide)
    have hmd : ∀ q : Str, lastIndex '.' (q ++ '.' :: name) = q.length := fun q => lastIndex_split q hdn
    have hdrop : ∀ q : Str, List.drop (q.length + 1) (q ++ '.' :: name) = name := by
      intro q
      rw [List.drop_append, List.drop_eq_nil_of_le (by omega)]
      simp
    cases ptr with
    | false =>
      have htext : FullName.text ⟨pkg, some (false, t, g), name, none⟩ = (pkg ++ '.' :: (t ++ bracket g)) ++ '.' :: name := by
        simp [FullName.text, bracket]
      unfold parseFuncName
      rw [htext]
      simp only [hmeth, hmd]
      rw [if_neg (by omega)]
      simp only [Int.toNat_natCast, hdrop, List.take_left']
      have hcut : cutBracket (pkg ++ '.' :: (t ++ bracket g)) = some (pkg ++ '.' :: t, g.getD []) := by
        have : pkg ++ '.' :: (t ++ bracket g) = (pkg ++ '.' :: t) ++ bracket g := by simp
        rw [this]
        refine bracket_cut _ g hg ?_
        intro c hc
        have : pkg ++ '.' :: t = (pkg ++ ['.']) ++ t := by simp
        rw [this] at hc
        have := ident_last ht _ hc
        rintro rfl
        exact this (by decide)
      have hns : ¬ ")".toList.isSuffixOf (pkg ++ '.' :: (t ++ bracket g)) = true := by
        rw [List.isSuffixOf_iff_suffix]
        rintro ⟨r, hr⟩
        have hl : (pkg ++ '.' :: (t ++ bracket g)).getLast? = some ')' := by
          rw [← hr]; exact List.getLast?_concat
        cases g with
        | none =>
          have : pkg ++ '.' :: (t ++ bracket none) = (pkg ++ ['.']) ++ t := by simp [bracket]
          rw [this] at hl
          exact ident_last ht _ hl (by decide)
        | some g =>
          have : pkg ++ '.' :: (t ++ bracket (some g)) = (pkg ++ '.' :: (t ++ '[' :: g)) ++ [']'] := by simp [bracket]
          rw [this, List.getLast?_concat] at hl
          cases hl
      rw [if_neg hns, hcut]
      simp only [splitRecv]
      have hdt : '.' ∉ t := ident_not ht (by decide)
      have hst : '/' ∉ t := ident_not ht (by decide)
      have hsn : '/' ∉ name := ident_not hname (by decide)
      rw [lastIndex_split pkg hdt, if_neg (by omega)]
      have hcond : ¬ ((pkg.length : Int) < lastIndex '/' (pkg ++ '.' :: (t ++ bracket g) ++ '.' :: name) ∧
          (pkg.length : Int) < if '/' ∈ g.getD [] then lastIndex '/' (pkg ++ '.' :: t)
            else lastIndex '/' (pkg ++ '.' :: (t ++ bracket g) ++ '.' :: name)) := by
        have hpk := lastIndex_lt '/' pkg
        by_cases hsg : '/' ∈ g.getD []
        · rw [if_pos hsg, lastIndex_append pkg (b := '.' :: t) (by simp [hst])]
          omega
        · have hbr : '/' ∉ bracket g := by
            cases g with
            | none => simp [bracket]
            | some g => simpa [bracket] using hsg
          have : lastIndex '/' (pkg ++ '.' :: (t ++ bracket g) ++ '.' :: name) = lastIndex '/' pkg := by
            rw [List.append_assoc]
            refine lastIndex_append pkg ?_
            simp [hst, hsn, hbr]
          rw [this]
          omega
      rw [if_neg hcond]
      simp only [Int.toNat_natCast, List.take_left']
      have hdt2 : List.drop (pkg.length + 1) (pkg ++ '.' :: t) = t := by
        rw [List.drop_append, List.drop_eq_nil_of_le (by omega)]
        simp
      rw [hdt2]
      cases t with
      | nil => exact absurd rfl ht.1
      | cons c t =>
        have hc : c ≠ '*' := by rintro rfl; exact ht.2 '*' (List.mem_cons_self ..) (by decide)
        unfold finishRecv
        split
        · rename_i heq; injection heq with h1; exact absurd h1 hc
        · simp
    | true =>
      have htext : FullName.text ⟨pkg, some (true, t, g), name, none⟩ =
          (pkg ++ '.' :: '(' :: ('*' :: (t ++ bracket g) ++ [')'])) ++ '.' :: name := by
        simp [FullName.text, bracket]
      unfold parseFuncName
      rw [htext]
      simp only [hmeth, hmd]
      rw [if_neg (by omega)]
      simp only [Int.toNat_natCast, hdrop, List.take_left']
      have hs : ")".toList.isSuffixOf (pkg ++ '.' :: '(' :: ('*' :: (t ++ bracket g) ++ [')'])) = true := by
        rw [List.isSuffixOf_iff_suffix]
        exact ⟨pkg ++ '.' :: '(' :: '*' :: (t ++ bracket g), by simp⟩
      rw [if_pos hs]
      have hpg : '(' ∉ bracket g := by
        cases g with
        | none => simp [bracket]
        | some g => simp [bracket, (hg g rfl).2.2]
      have hidx : lastIndex '(' (pkg ++ '.' :: '(' :: ('*' :: (t ++ bracket g) ++ [')'])) = (pkg.length + 1 : Nat) := by
        have : pkg ++ '.' :: '(' :: ('*' :: (t ++ bracket g) ++ [')']) =
            (pkg ++ ['.']) ++ '(' :: ('*' :: (t ++ bracket g) ++ [')']) := by simp
        rw [this, lastIndex_split]
        · simp
        · simp [ident_not ht (c := '(') (by decide), hpg]
      rw [hidx, if_neg (by omega), if_neg (by omega)]
      simp only [Int.toNat_natCast, Nat.add_sub_cancel]
      have hget : (pkg ++ '.' :: '(' :: ('*' :: (t ++ bracket g) ++ [')']))[pkg.length]? = some '.' := by simp
      rw [hget]
      simp only [ne_eq, not_true_eq_false, if_false, List.take_left']
      have hin : (List.drop (pkg.length + 1 + 1) (pkg ++ '.' :: '(' :: ('*' :: (t ++ bracket g) ++ [')']))).dropLast =
          ('*' :: t) ++ bracket g := by
        rw [List.drop_append, List.drop_eq_nil_of_le (by omega)]
        have : pkg.length + 1 + 1 - pkg.length = 2 := by omega
        rw [this, List.nil_append]
        show (('*' :: (t ++ bracket g)) ++ [')']).dropLast = _
        rw [List.dropLast_concat]
        rfl
      rw [hin, bracket_cut _ g hg]
      · simp [finishRecv]
      · intro c hc
        have : '*' :: t = ['*'] ++ t := rfl
        rw [this] at hc
        have := ident_last ht _ hc
        rintro rfl
        exact this (by decide)

example : FullName.Valid ⟨"github.com/x/y".toList, some (true, "File".toList, some "a/b.Inner".toList), "Read".toList, none⟩ ∧
    parseFuncName "github.com/x/y.(*File[a/b.Inner]).Read".toList = some
      { pkgPath := "github.com/x/y".toList, recvName := "File".toList, recvPtr := true,
        typeGeneric := "a/b.Inner".toList, funcName := "Read".toList } := by
  refine ⟨⟨by decide, by decide, by decide, by decide, ⟨by decide, by decide⟩, ?_, by simp, fun _ => rfl⟩, by decide +kernel⟩
  intro p t g h
  cases h
  exact ⟨⟨by decide, by decide⟩, fun a h => by cases h; exact ⟨by decide, by decide, by decide⟩⟩

/-- **C37 is false** for type arguments that are instances of generic types, or function types. -/
theorem C37_counterexample_nested :
    parseFuncName (FullName.text ⟨"m/p".toList, some (false, "T".toList, some "m/p.B[int]".toList), "M".toList, none⟩) =
      some { pkgPath := "m/p.T[m/p".toList, recvName := "B".toList, typeGeneric := "int]".toList, funcName := "M".toList } ∧
    parseFuncName (FullName.text ⟨"m/p".toList, some (true, "T".toList, some "func()".toList), "M".toList, none⟩) =
      some { funcName := "M".toList } := by decide +kernel

/-- **C37 is false** for packages with a dot in the last part of their path: as the Go runtime writes their names, the
    package path is not the import path; and written plainly, the part after the dot is taken for a receiver. -/
theorem C37_counterexample_dot :
    (parseFuncName (FullName.text ⟨escape "gopkg.in/yaml.v3".toList, none, "Map".toList, some "int".toList⟩)).map
        (·.pkgPath) = some "gopkg.in/yaml%2ev3".toList ∧
    parseFuncName (FullName.text ⟨"gopkg.in/yaml.v3".toList, none, "Map".toList, none⟩) =
      some { pkgPath := "gopkg.in/yaml".toList, recvName := "v3".toList, funcName := "Map".toList } := by decide +kernel

/-- A name starting with a parenthesis makes the parser panic. -/
theorem C37_counterexample_panic : parseFuncName "(*T).M".toList = none := by decide +kernel

end Verif.Runtime.Functab
