/-
C30: Go versions.
-/
import Verif.Support.GoVersion
import Verif.Support.GoVersionSpec
import Verif.Support.SemverProps

namespace Verif.Support.GoVersion
open Spec

theorem cutInt_eq (x : Str) : cutInt x = Semver.parseInt x := by
  unfold cutInt Semver.parseInt
  cases x with
  | nil => rfl
  | cons c x =>
    simp only
    by_cases hd : isDig c = true
    · rw [List.takeWhile_cons_of_pos hd]
      simp [hd]
    · rw [List.takeWhile_cons_of_neg hd]
      simp [hd]

theorem cutInt_append {t r : Str} (ht : Canonical t) (hr : ∀ c, r.head? = some c → isDig c = false) :
    cutInt (t ++ r) = some (t, r) := by rw [cutInt_eq]; exact Semver.parseInt_append ht hr

theorem cutInt_all {t : Str} (ht : Canonical t) : cutInt t = some (t, []) := by
  have := cutInt_append (r := []) ht (by simp)
  rwa [List.append_nil] at this

theorem cutInt_some {x t r : Str} (h : cutInt x = some (t, r)) : x = t ++ r ∧ Canonical t := by
  rw [cutInt_eq] at h; exact Semver.parseInt_some h

theorem isLow_iff (c : Char) : isLow c = true ↔ c.isLower = true := by
  unfold isLow Char.isLower
  simp [UInt32.le_iff_toNat_le]

theorem low_not_dig {c : Char} (h : isLow c = true) : isDig c = false := by
  simp [isLow] at h
  simp [isDig]; omega

theorem low_ne_dot {c : Char} (h : isLow c = true) : c ≠ '.' := by
  rintro rfl; exact absurd h (by decide)

theorem cmpInt_nil_left {y : Str} (h : y ≠ []) : cmpInt [] y = -1 := by
  unfold cmpInt
  rw [if_neg (fun e => h e.symm), if_pos (by simpa using List.length_pos_iff.2 h)]

theorem cmpInt_nil_right {x : Str} (h : x ≠ []) : cmpInt x [] = 1 := by
  unfold cmpInt
  rw [if_neg h, if_neg (by simp), if_pos (by simpa using List.length_pos_iff.2 h)]

theorem cmpInt_opt (a b : Option Nat) : cmpInt (optText a) (optText b) = sgn (compare a b) := by
  cases a with
  | none => cases b with
    | none => rfl
    | some n => exact cmpInt_nil_left (y := Nat.toDigits 10 n) Nat.toDigits_ne_nil
  | some m => cases b with
    | none => exact cmpInt_nil_right (x := Nat.toDigits 10 m) Nat.toDigits_ne_nil
    | some n => exact cmpInt_toDigits m n

theorem zero_text : (['0'] : Str) = dec 0 := (Nat.toDigits_zero 10).symm

theorem compareString_eq (x y : Str) : compareString x y = sgn (compare x y) := by
  unfold compareString strLt
  have hs : compare y x = (compare x y).swap := Std.OrientedOrd.eq_swap
  rw [hs]
  have : ∀ o : Ordering, (if (o == .lt) = true then (-1 : Int) else if (o.swap == .lt) = true then 1 else 0) = sgn o := by
    intro o; cases o <;> rfl
  exact this _

theorem parsePre_eq {M m kind : Str} (hk : kind ≠ []) (hl : ∀ c ∈ kind, c.isLower = true) (n : Option Nat) :
    parsePre M m (kind ++ optText n) = ⟨M, m, [], kind, optText n⟩ := by
  have hlow : ∀ c ∈ kind, isLow c = true := fun c hc => (isLow_iff c).2 (hl c hc)
  have h := Semver.takeWhile_append' (p := fun c => !isDig c) (t := kind) (r := optText n)
    (fun c hc => by rw [low_not_dig (hlow c hc)]; rfl)
    (by
      intro c hc
      cases n with
      | none => cases hc
      | some n =>
        have : c ∈ Nat.toDigits 10 n := List.mem_of_mem_head? hc
        rw [digit_toDigits this]; rfl)
  unfold parsePre
  rw [h.1, h.2]
  simp only
  rw [if_neg (by simpa using hlow), if_neg hk]
  cases n with
  | none => simp [optText]
  | some n =>
    have e : optText (some n) = Nat.toDigits 10 n := rfl
    rw [e, if_neg (by exact Nat.toDigits_ne_nil), cutInt_all (canonical_toDigits n)]
    simp

/-- The code's parse of a text. -/
theorem text_parse {s : Str} {v : Ver} (h : Text s v) :
    parseVersion s = ⟨dec v.major, dec v.minor, optText v.patch, v.kind, optText v.pre⟩ := by
  cases h with
  | major M =>
    unfold parseVersion
    rw [cutInt_all (canonical_toDigits M), zero_text]
    rfl
  | oldMinor M m hm =>
    unfold parseVersion
    rw [cutInt_append (canonical_toDigits M) (Semver.head_dot _)]
    simp only
    rw [if_neg (by simp), cutInt_all (canonical_toDigits m)]
    simp only
    have : cmpInt (dec m) ['2', '1'] = sgn (compare m 21) := cmpInt_toDigits m 21
    rw [this, compare_lt hm, if_pos (by decide), zero_text]
    rfl
  | minor M m hm =>
    unfold parseVersion
    rw [cutInt_append (canonical_toDigits M) (Semver.head_dot _)]
    simp only
    rw [if_neg (by simp), cutInt_all (canonical_toDigits m)]
    simp only
    have : cmpInt (dec m) ['2', '1'] = sgn (compare m 21) := cmpInt_toDigits m 21
    rw [this, if_neg]
    · rfl
    · rcases Nat.lt_or_eq_of_le hm with h | h
      · rw [compare_gt h]; decide
      · rw [← h]; decide
  | patch M m p =>
    unfold parseVersion
    rw [List.append_assoc, cutInt_append (canonical_toDigits M) (by
      rw [List.cons_append]; exact Semver.head_dot _)]
    simp only [List.cons_append]
    rw [if_neg (by simp), cutInt_append (canonical_toDigits m) (Semver.head_dot _)]
    simp only
    rw [if_pos trivial, cutInt_all (canonical_toDigits p)]
    simp [optText]
  | pre M m kind n hk hl =>
    have hlow : ∀ c ∈ kind, isLow c = true := fun c hc => (isLow_iff c).2 (hl c hc)
    unfold parseVersion
    rw [List.append_assoc, List.append_assoc, cutInt_append (canonical_toDigits M) (by
      rw [List.cons_append]; exact Semver.head_dot _)]
    simp only [List.cons_append]
    rw [if_neg (by simp), cutInt_append (canonical_toDigits m) (by
      intro c hc
      cases kind with
      | nil => exact absurd rfl hk
      | cons k kind =>
        simp at hc
        subst hc
        exact low_not_dig (hlow _ (by simp)))]
    have hp := parsePre_eq (M := dec M) (m := dec m) hk hl n
    cases kind with
    | nil => exact absurd rfl hk
    | cons k kind =>
      simp only [List.cons_append] at hp ⊢
      rw [if_neg (low_ne_dot (hlow k (by simp)))]
      exact hp

/-- What the code accepts is a text. -/
theorem parse_text {s : Str} (h : parseVersion s ≠ .zero) : ∃ v, Text s v := by
  unfold parseVersion at h
  split at h
  · exact absurd rfl h
  · rename_i major r1 h1
    obtain ⟨rfl, c1⟩ := cutInt_some h1
    split at h
    · refine ⟨⟨val major, 0, some 0, [], none⟩, ?_⟩
      have := Text.major (val major)
      rw [dec, toDigits_val c1] at this
      simpa using this
    · rename_i c r1
      split at h
      · exact absurd rfl h
      · rename_i hc
        have hc : c = '.' := by simpa using hc
        subst hc
        split at h
        · exact absurd rfl h
        · rename_i minor r2 h2
          obtain ⟨rfl, c2⟩ := cutInt_some h2
          split at h
          · by_cases hm : val minor < 21
            · refine ⟨⟨val major, val minor, some 0, [], none⟩, ?_⟩
              have := Text.oldMinor (val major) (val minor) hm
              rw [dec, toDigits_val c1, dec, toDigits_val c2] at this
              simpa using this
            · refine ⟨⟨val major, val minor, none, [], none⟩, ?_⟩
              have := Text.minor (val major) (val minor) (by omega)
              rw [dec, toDigits_val c1, dec, toDigits_val c2] at this
              simpa using this
          · rename_i c r2
            split at h
            · rename_i hc
              subst hc
              split at h
              · exact absurd rfl h
              · rename_i patch r3 h3
                obtain ⟨rfl, c3⟩ := cutInt_some h3
                split at h
                · exact absurd rfl h
                · rename_i hr
                  have hr : r3 = [] := by simpa using hr
                  subst hr
                  refine ⟨⟨val major, val minor, some (val patch), [], none⟩, ?_⟩
                  have := Text.patch (val major) (val minor) (val patch)
                  rw [dec, toDigits_val c1, dec, toDigits_val c2, dec, toDigits_val c3] at this
                  simpa using this
            · unfold parsePre at h
              simp only at h
              generalize hx : c :: r2 = x at *
              have hcat : x = x.takeWhile (fun c => !isDig c) ++ x.dropWhile (fun c => !isDig c) :=
                (List.takeWhile_append_dropWhile ..).symm
              generalize x.takeWhile (fun c => !isDig c) = kind at *
              generalize x.dropWhile (fun c => !isDig c) = rest at *
              split at h
              · exact absurd rfl h
              · rename_i hlow
                split at h
                · exact absurd rfl h
                · rename_i hk
                  have hl : ∀ c ∈ kind, c.isLower = true := by
                    intro c hc
                    rw [← isLow_iff]
                    simp at hlow
                    exact hlow c hc
                  split at h
                  · rename_i hr
                    refine ⟨⟨val major, val minor, none, kind, none⟩, ?_⟩
                    have := Text.pre (val major) (val minor) kind none hk hl
                    rw [dec, toDigits_val c1, dec, toDigits_val c2] at this
                    rw [hcat, hr]
                    simpa [optText] using this
                  · split at h
                    · exact absurd rfl h
                    · rename_i pre r3 h3
                      obtain ⟨he, c3⟩ := cutInt_some h3
                      split at h
                      · exact absurd rfl h
                      · rename_i hr
                        have hr : r3 = [] := by simpa using hr
                        subst hr
                        refine ⟨⟨val major, val minor, none, kind, some (val pre)⟩, ?_⟩
                        have := Text.pre (val major) (val minor) kind (some (val pre)) hk hl
                        rw [dec, toDigits_val c1, dec, toDigits_val c2] at this
                        rw [optText, dec, toDigits_val c3] at this
                        rw [hcat, he]
                        simpa using this

/-- **C30** (validity) `IsValidVersion` accepts exactly the texts of Go versions. -/
theorem C30_valid_iff (s : Str) : isValidVersion s = true ↔ ∃ v, Text s v := by
  unfold isValidVersion
  constructor
  · intro h; exact parse_text (by simpa using h)
  · rintro ⟨v, h⟩
    rw [text_parse h]
    have : dec v.major ≠ [] := Nat.toDigits_ne_nil
    simp [Version.zero, this]

/-- **C30** (order) `CompareVersion` returns the sign of the order of Go versions. -/
theorem C30_compare {a b : Str} {v w : Ver} (ha : Text a v) (hb : Text b w) :
    compareVersion a b = sgn (prec v w) := by
  unfold compareVersion
  rw [text_parse ha, text_parse hb]
  simp only [cmpInt_toDigits, cmpInt_opt, compareString_eq, prec, sgn_then]
  by_cases h : sgn (compare v.pre w.pre) = 0
  · simp [h]
  · simp [h]

theorem prec_trans : Std.TransCmp prec := by
  have : prec = compareLex (compareOn Ver.major) (compareLex (compareOn Ver.minor)
      (compareLex (compareOn Ver.patch) (compareLex (compareOn Ver.kind) (compareOn Ver.pre)))) := rfl
  rw [this]
  infer_instance

/-- **C30** Invalid strings are all equal and before every valid one. -/
theorem C30_invalid (a b : Str) :
    (isValidVersion a = false → isValidVersion b = false → compareVersion a b = 0) ∧
    (isValidVersion a = false → isValidVersion b = true → compareVersion a b = -1) ∧
    (isValidVersion a = true → isValidVersion b = false → compareVersion a b = 1) := by
  have hz : ∀ {s}, isValidVersion s = false → parseVersion s = .zero := by
    intro s h
    unfold isValidVersion at h
    simpa using h
  refine ⟨?_, ?_, ?_⟩
  · intro h1 h2
    unfold compareVersion
    rw [hz h1, hz h2]; decide
  · intro h1 h2
    obtain ⟨w, hw⟩ := (C30_valid_iff b).1 h2
    unfold compareVersion
    rw [hz h1, text_parse hw]
    simp [Version.zero, cmpInt_nil_left (y := dec w.major) Nat.toDigits_ne_nil]
  · intro h1 h2
    obtain ⟨w, hw⟩ := (C30_valid_iff a).1 h1
    unfold compareVersion
    rw [hz h2, text_parse hw]
    simp [Version.zero, cmpInt_nil_right (x := dec w.major) Nat.toDigits_ne_nil]

theorem valid_cases (s : Str) : (∃ v, Text s v) ∨ isValidVersion s = false := by
  by_cases h : isValidVersion s = true
  · exact Or.inl ((C30_valid_iff s).1 h)
  · exact Or.inr (by simpa using h)

/-- **C30** (total preorder) Over all strings. -/
theorem C30_total_preorder (a b c : Str) :
    (compareVersion a b = -1 ∨ compareVersion a b = 0 ∨ compareVersion a b = 1) ∧
    compareVersion a a = 0 ∧
    compareVersion b a = - compareVersion a b ∧
    (compareVersion a b ≤ 0 → compareVersion b c ≤ 0 → compareVersion a c ≤ 0) := by
  have ht := prec_trans
  have hv : ∀ {s v}, Text s v → isValidVersion s = true := fun h => (C30_valid_iff _).2 ⟨_, h⟩
  refine ⟨?_, ?_, ?_, ?_⟩
  · rcases valid_cases a with ⟨v, ha⟩ | ha <;> rcases valid_cases b with ⟨w, hb⟩ | hb
    · rw [C30_compare ha hb]; cases prec v w <;> decide
    · rw [(C30_invalid a b).2.2 (hv ha) hb]; decide
    · rw [(C30_invalid a b).2.1 ha (hv hb)]; decide
    · rw [(C30_invalid a b).1 ha hb]; decide
  · rcases valid_cases a with ⟨v, ha⟩ | ha
    · rw [C30_compare ha ha, Std.ReflCmp.compare_self (cmp := prec)]; rfl
    · exact (C30_invalid a a).1 ha ha
  · rcases valid_cases a with ⟨v, ha⟩ | ha <;> rcases valid_cases b with ⟨w, hb⟩ | hb
    · rw [C30_compare ha hb, C30_compare hb ha, ← sgn_swap, ← Std.OrientedCmp.eq_swap (cmp := prec)]
    · rw [(C30_invalid a b).2.2 (hv ha) hb, (C30_invalid b a).2.1 hb (hv ha)]
    · rw [(C30_invalid a b).2.1 ha (hv hb), (C30_invalid b a).2.2 (hv hb) ha]; rfl
    · rw [(C30_invalid a b).1 ha hb, (C30_invalid b a).1 hb ha]; rfl
  · rcases valid_cases a with ⟨v, ha⟩ | ha <;> rcases valid_cases b with ⟨w, hb⟩ | hb <;>
      rcases valid_cases c with ⟨x, hc⟩ | hc
    · rw [C30_compare ha hb, C30_compare hb hc, C30_compare ha hc, sgn_le, sgn_le, sgn_le]
      exact Std.TransCmp.isLE_trans
    · rw [(C30_invalid b c).2.2 (hv hb) hc]; intro _ h; exact absurd h (by decide)
    · rw [(C30_invalid a b).2.2 (hv ha) hb]; intro h; exact absurd h (by decide)
    · rw [(C30_invalid a b).2.2 (hv ha) hb]; intro h; exact absurd h (by decide)
    · rw [(C30_invalid a c).2.1 ha (hv hc)]; intro _ _; decide
    · rw [(C30_invalid a c).1 ha hc]; intro _ _; decide
    · rw [(C30_invalid a c).2.1 ha (hv hc)]; intro _ _; decide
    · rw [(C30_invalid a c).1 ha hc]; intro _ _; decide

example : Text "1.21rc2".toList ⟨1, 21, none, "rc".toList, some 2⟩ :=
  Text.pre 1 21 "rc".toList (some 2) (by decide) (by decide)
example : compareVersion "1.21".toList "1.21rc1".toList = -1 := by decide +kernel
example : compareVersion "1.21rc9".toList "1.21rc10".toList = -1 := by decide +kernel
example : compareVersion "1.21rc1".toList "1.21.0".toList = -1 := by decide +kernel
example : compareVersion "1.9".toList "1.10".toList = -1 := by decide +kernel
example : compareVersion "1.9".toList "1.9.0".toList = 0 := by decide +kernel
example : compareVersion "1.021".toList "x".toList = 0 := by decide +kernel

/-! ### `go version` output -/

theorem splitOn_word (sep : Char) (t : Str) (ht : sep ∉ t) : ∀ w s,
    splitOn sep w (t ++ s) = splitOn sep (w ++ t) s := by
  induction t with
  | nil => intro w s; simp
  | cons c t ih =>
    intro w s
    have hc : ¬ c = sep := fun h => ht (by simp [h])
    rw [List.cons_append, splitOn, if_neg hc, ih (fun h => ht (by simp [h]))]
    simp

theorem digits_ne {c d : Char} {n : Nat} (hd : isDig d = false) (h : c ∈ Nat.toDigits 10 n) : c ≠ d := by
  rintro rfl; rw [digit_toDigits h] at hd; cases hd

theorem parseInt64_nat {n : Nat} (h : n < 2 ^ 63) : parseInt64 (Nat.toDigits 10 n) = some (n : Int) := by
  have hc := canonical_toDigits n
  have hne : ∀ d, isDig d = false → (Nat.toDigits 10 n).head? ≠ some d := by
    intro d hd he
    have := List.mem_of_mem_head? he
    exact digits_ne hd this rfl
  unfold parseInt64
  have h1 := hne '-' (by decide)
  have h2 := hne '+' (by decide)
  have h3 : ((Nat.toDigits 10 n).head? == some '-') = false := by simpa using h1
  have h5 : (if (Nat.toDigits 10 n).head? = some '-' ∨ (Nat.toDigits 10 n).head? = some '+' then
      (Nat.toDigits 10 n).tail else Nat.toDigits 10 n) = Nat.toDigits 10 n := if_neg (by simp [h1, h2])
  simp only
  rw [h3, h5]
  have h4 : val (Nat.toDigits 10 n) = n := Nat.ofDigitChars_ten_toDigits
  rw [if_neg, h4]
  · simp only [Bool.false_eq_true, if_false]
    rw [if_neg]
    simp only [not_or, Int.not_lt]
    constructor
    · have : (0 : Int) ≤ n := Int.natCast_nonneg n
      omega
    · have : (n : Int) < (2 ^ 63 : Nat) := by exact_mod_cast h
      simp at this ⊢
      omega
  · simp only [not_or]
    refine ⟨hc.1, ?_⟩
    simpa using hc.2.1

theorem mem_dec_cut (d : Char) (hd : isDig d = false) (n : Nat) : d ∉ Nat.toDigits 10 n :=
  fun h => digits_ne hd h rfl

theorem cutMinor_dec (m : Nat) (suffix : Str) (hs : ∀ c, suffix.head? = some c → isDig c = false) :
    cutMinor (Nat.toDigits 10 m ++ suffix) = Nat.toDigits 10 m := by
  have hc := canonical_toDigits m
  have h := Semver.takeWhile_append' (p := isDig) (t := Nat.toDigits 10 m) (r := suffix) hc.2.1 hs
  unfold cutMinor
  rw [h.1]
  simp only
  have hpos : 0 < (Nat.toDigits 10 m).length := List.length_pos_iff.2 hc.1
  cases suffix with
  | nil => simp
  | cons c s => rw [if_pos ⟨by simp, hpos⟩]

/-- The three numbers of `M.m[suffix][.p]`. -/
theorem number_patch (M m p : Nat) (hM : M < 2 ^ 63) (hm : m < 2 ^ 63) (hp : p < 2 ^ 63) :
    parseGoVersionNumber (dec M ++ '.' :: dec m ++ '.' :: dec p) = some ⟨M, m, p, [], []⟩ := by
  unfold parseGoVersionNumber
  have hd : isDig '.' = false := by decide
  have hsplit : splitOn '.' [] (dec M ++ '.' :: dec m ++ '.' :: dec p) = [dec M, dec m, dec p] := by
    rw [List.append_assoc, splitOn_word '.' _ (mem_dec_cut '.' hd M), List.cons_append, splitOn, if_pos rfl,
      splitOn_word '.' _ (mem_dec_cut '.' hd m), splitOn, if_pos rfl]
    have := splitOn_word '.' (dec p) (mem_dec_cut '.' hd p) [] []
    rw [List.append_nil] at this
    rw [this]
    simp [splitOn]
  rw [hsplit]
  have hcm : cutMinor (dec m) = dec m := by
    have := cutMinor_dec m [] (by simp)
    simpa using this
  simp [parseInt64_nat hM, parseInt64_nat hm, parseInt64_nat hp, hcm]

theorem number_minor (M m : Nat) (suffix : Str) (hM : M < 2 ^ 63) (hm : m < 2 ^ 63)
    (hs : ∀ c, suffix.head? = some c → isDig c = false) (hdot : '.' ∉ suffix) :
    parseGoVersionNumber (dec M ++ '.' :: dec m ++ suffix) = some ⟨M, m, 0, [], []⟩ := by
  unfold parseGoVersionNumber
  have hd : isDig '.' = false := by decide
  have hsplit : splitOn '.' [] (dec M ++ '.' :: dec m ++ suffix) = [dec M, dec m ++ suffix] := by
    rw [List.append_assoc, splitOn_word '.' _ (mem_dec_cut '.' hd M), List.cons_append, splitOn, if_pos rfl]
    have hnd : '.' ∉ dec m ++ suffix := by
      simp only [List.mem_append, not_or]; exact ⟨mem_dec_cut '.' hd m, hdot⟩
    have := splitOn_word '.' (dec m ++ suffix) hnd [] []
    rw [List.append_nil] at this
    rw [this]
    simp [splitOn]
  rw [hsplit]
  have hcm := cutMinor_dec m suffix hs
  simp [parseInt64_nat hM, parseInt64_nat hm, hcm]

theorem cut_at (d : Char) (a b : Str) (h : d ∉ a) :
    (a ++ d :: b).takeWhile (· != d) = a ∧ ((a ++ d :: b).dropWhile (· != d)).tail = b := by
  have := Semver.takeWhile_append' (p := (· != d)) (t := a) (r := d :: b)
    (fun c hc => by simp; rintro rfl; exact h hc) (by intro c hc; simp at hc; subst hc; simp)
  rw [this.1, this.2]
  exact ⟨rfl, rfl⟩

theorem parseGoVersion_of {version os arch : Str} {g : GoInfo} (hv : ' ' ∉ version) (ho : '/' ∉ os)
    (h : parseGoVersionNumber version = some g) :
    parseGoVersion ("go version ".toList ++ "go".toList ++ version ++ ' ' :: os ++ '/' :: arch) =
      some { g with os := os, arch := arch } := by
  unfold parseGoVersion
  have e1 : "go version ".toList ++ "go".toList ++ version ++ ' ' :: os ++ '/' :: arch =
      "go version ".toList ++ ("go".toList ++ (version ++ ' ' :: (os ++ '/' :: arch))) := by simp
  rw [e1]
  have p1 : ("go version ".toList).isPrefixOf ("go version ".toList ++ ("go".toList ++ (version ++ ' ' :: (os ++ '/' :: arch)))) = true := by
    rw [List.isPrefixOf_iff_prefix]; exact List.prefix_append ..
  have d1 : ("go version ".toList ++ ("go".toList ++ (version ++ ' ' :: (os ++ '/' :: arch)))).drop "go version ".length =
      "go".toList ++ (version ++ ' ' :: (os ++ '/' :: arch)) := by
    exact List.drop_left ..
  have p2 : ("go".toList).isPrefixOf ("go".toList ++ (version ++ ' ' :: (os ++ '/' :: arch))) = true := by
    rw [List.isPrefixOf_iff_prefix]; exact List.prefix_append ..
  have d2 : ("go".toList ++ (version ++ ' ' :: (os ++ '/' :: arch))).drop "go".length =
      version ++ ' ' :: (os ++ '/' :: arch) := List.drop_left ..
  simp only [p1, d1, p2, d2]
  obtain ⟨c1, c2⟩ := cut_at ' ' version (os ++ '/' :: arch) hv
  obtain ⟨c3, c4⟩ := cut_at '/' os arch ho
  rw [c1, c2, h]
  simp [c3, c4]

/-- **C30** (`go version`) Every output `go version goM.m.p os/arch`, `go version goM.m os/arch` and
    `go version goM.mSUFFIX os/arch` (`1.23rc1`, `1.22-custom`) is accepted and read correctly. -/
theorem C30_parse_go_version (M m p : Nat) (suffix os arch : Str) (hM : M < 2 ^ 63) (hm : m < 2 ^ 63)
    (hp : p < 2 ^ 63) (hos : '/' ∉ os) (hs : ∀ c, suffix.head? = some c → c.isDigit = false)
    (hdot : '.' ∉ suffix) (hsp : ' ' ∉ suffix) :
    parseGoVersion ("go version ".toList ++ "go".toList ++ (dec M ++ '.' :: dec m ++ '.' :: dec p) ++ ' ' :: os ++ '/' :: arch) =
      some ⟨M, m, p, os, arch⟩ ∧
    parseGoVersion ("go version ".toList ++ "go".toList ++ (dec M ++ '.' :: dec m ++ suffix) ++ ' ' :: os ++ '/' :: arch) =
      some ⟨M, m, 0, os, arch⟩ := by
  have hd : isDig ' ' = false := by decide
  constructor
  · rw [parseGoVersion_of _ hos (number_patch M m p hM hm hp)]
    simp only [List.mem_append, List.mem_cons, not_or]
    exact ⟨⟨mem_dec_cut ' ' hd M, by decide, mem_dec_cut ' ' hd m⟩, by decide, mem_dec_cut ' ' hd p⟩
  · rw [parseGoVersion_of _ hos (number_minor M m suffix hM hm
      (fun c hc => by rw [Semver.isDig_isDigit]; exact hs c hc) hdot)]
    simp only [List.mem_append, List.mem_cons, not_or]
    exact ⟨⟨mem_dec_cut ' ' hd M, by decide, mem_dec_cut ' ' hd m⟩, hsp⟩

/-- **C30** (round trip) Printing a version and reading it back gives the same version. -/
theorem C30_string_round_trip (M m p : Nat) (os arch : Str) (hM : M < 2 ^ 63) (hm : m < 2 ^ 63)
    (hp : p < 2 ^ 63) (hos : '/' ∉ os) :
    parseGoVersion (GoInfo.string ⟨M, m, p, os, arch⟩) = some ⟨M, m, p, os, arch⟩ := by
  have := (C30_parse_go_version M m p [] os arch hM hm hp hos (by simp) (by simp) (by simp)).1
  rw [← this]
  unfold GoInfo.string itoa
  simp only [Int.natAbs_natCast]
  rw [if_neg (by omega), if_neg (by omega), if_neg (by omega)]
  simp

example : parseGoVersion "go version go1.23rc1 linux/amd64".toList = some ⟨1, 23, 0, "linux".toList, "amd64".toList⟩ := by
  decide +kernel

end Verif.Support.GoVersion
