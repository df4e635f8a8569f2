/-
Decimal numerals, and the comparison of numerals as strings (by length, then lexicographically) that both version
comparisons use.

Source: support/goinfo/semver.go:189-204 (`compareInt`), support/goinfo/version.go:130-145 (`CmpInt`).
-/
namespace Verif.Support

/-- Simplification: a Go string is a list of characters; the order of Go strings (bytes of valid UTF-8) is the
    lexicographic order by code points. -/
abbrev Str := List Char

/-- Go's `x < y` on strings. -/
def strLt (x y : Str) : Bool := compare x y == .lt

/-- A digit `'0' <= c && c <= '9'`. -/
def isDig (c : Char) : Bool := decide (48 ≤ c.toNat) && decide (c.toNat ≤ 57)

/-- `compareInt` (semver.go:189-204) and `CmpInt` (version.go:130-145), which have the same body. -/
def cmpInt (x y : Str) : Int :=
  if x = y then 0
  else if x.length < y.length then -1
  else if x.length > y.length then 1
  else if strLt x y then -1
  else 1

/-- The sign of an ordering. -/
def sgn : Ordering → Int
  | .lt => -1
  | .eq => 0
  | .gt => 1

theorem sgn_inj {a b : Ordering} (h : sgn a = sgn b) : a = b := by
  cases a <;> cases b <;> first | rfl | (exact absurd h (by decide))

theorem sgn_then (a b : Ordering) : sgn (a.then b) = if sgn a ≠ 0 then sgn a else sgn b := by
  cases a <;> rfl

theorem sgn_swap (a : Ordering) : sgn a.swap = - sgn a := by cases a <;> rfl

theorem sgn_le (a : Ordering) : sgn a ≤ 0 ↔ a.isLE = true := by cases a <;> decide

/-- The value of a numeral. -/
abbrev val (x : Str) : Nat := Nat.ofDigitChars 10 x 0

/-- A numeral without unnecessary leading zero. -/
def Canonical (x : Str) : Prop := x ≠ [] ∧ (∀ c ∈ x, isDig c = true) ∧ (x.head? = some '0' → x.length = 1)

theorem isDig_iff (c : Char) : isDig c = true ↔ 48 ≤ c.toNat ∧ c.toNat ≤ 57 := by
  simp [isDig]

theorem val_cons (c : Char) (x : Str) : val (c :: x) = 10 ^ x.length * (c.toNat - 48) + val x := by
  unfold val
  rw [Nat.ofDigitChars_cons, Nat.ofDigitChars_eq_ofDigitChars_zero]
  simp

theorem val_lt (x : Str) (h : ∀ c ∈ x, isDig c = true) : val x < 10 ^ x.length := by
  induction x with
  | nil => simp [val]
  | cons c x ih =>
    have hc := (isDig_iff c).1 (h c (by simp))
    have ih := ih fun d hd => h d (by simp [hd])
    rw [val_cons, List.length_cons, Nat.pow_succ]
    have h1 : 10 ^ x.length * (c.toNat - 48) ≤ 10 ^ x.length * 9 := Nat.mul_le_mul_left _ (by omega)
    omega

theorem le_val {x : Str} (h : Canonical x) (hl : 2 ≤ x.length) : 10 ^ (x.length - 1) ≤ val x := by
  obtain ⟨h1, h2, h3⟩ := h
  cases x with
  | nil => exact absurd rfl h1
  | cons c x =>
    have hc := (isDig_iff c).1 (h2 c (by simp))
    have hne : c ≠ '0' := by
      intro e
      have := h3 (by simp [e])
      omega
    have : c.toNat ≠ 48 := by
      intro e
      apply hne
      apply Char.toNat_inj.1
      rw [e]; rfl
    rw [val_cons]
    simp only [List.length_cons, Nat.add_sub_cancel]
    have h1 : 10 ^ x.length * 1 ≤ 10 ^ x.length * (c.toNat - 48) := Nat.mul_le_mul_left _ (by omega)
    omega

theorem charCompare_eq (a b : Char) : compare a b = compare a.toNat b.toNat := by
  simp only [compare, compareOfLessAndEq]
  have h1 : a < b ↔ a.toNat < b.toNat := by
    rw [Char.lt_def, UInt32.lt_iff_toNat_lt]; rfl
  have h2 : a = b ↔ a.toNat = b.toNat := Char.toNat_inj.symm
  simp only [h1, h2]

theorem compare_lt {a b : Nat} (h : a < b) : compare a b = .lt := Nat.compare_eq_lt.2 h
theorem compare_gt {a b : Nat} (h : b < a) : compare a b = .gt := Nat.compare_eq_gt.2 h

theorem compare_same_length : ∀ (x y : Str), (∀ c ∈ x, isDig c = true) → (∀ c ∈ y, isDig c = true) →
    x.length = y.length → compare x y = compare (val x) (val y) := by
  intro x
  induction x with
  | nil => intro y _ _ h; cases y with
    | nil => rfl
    | cons => cases h
  | cons a x ih =>
    intro y hx hy hl
    cases y with
    | nil => cases hl
    | cons b y =>
      have hl' : x.length = y.length := by simpa using hl
      have ha := (isDig_iff a).1 (hx a (by simp))
      have hb := (isDig_iff b).1 (hy b (by simp))
      have vx := val_lt x fun c hc => hx c (by simp [hc])
      have vy := val_lt y fun c hc => hy c (by simp [hc])
      rw [List.compare_cons_cons, ih y (fun c hc => hx c (by simp [hc])) (fun c hc => hy c (by simp [hc])) hl',
        val_cons, val_cons, charCompare_eq, hl']
      rw [hl'] at vx
      rcases Nat.lt_trichotomy a.toNat b.toNat with h | h | h
      · rw [compare_lt h]
        have h1 : 10 ^ y.length * (a.toNat - 48 + 1) ≤ 10 ^ y.length * (b.toNat - 48) :=
          Nat.mul_le_mul_left _ (by omega)
        rw [Nat.mul_add] at h1
        rw [compare_lt (a := 10 ^ y.length * (a.toNat - 48) + val x) (by omega)]; rfl
      · rw [h, Nat.compare_eq_eq.2 rfl]
        simp only [Ordering.eq_then]
        rcases Nat.lt_trichotomy (val x) (val y) with h | h | h
        · rw [compare_lt h, compare_lt (by omega)]
        · rw [h, Nat.compare_eq_eq.2 rfl, Nat.compare_eq_eq.2 rfl]
        · rw [compare_gt h, compare_gt (by omega)]
      · rw [compare_gt h]
        have h1 : 10 ^ y.length * (b.toNat - 48 + 1) ≤ 10 ^ y.length * (a.toNat - 48) :=
          Nat.mul_le_mul_left _ (by omega)
        rw [Nat.mul_add] at h1
        rw [compare_gt (a := 10 ^ y.length * (a.toNat - 48) + val x) (by omega)]; rfl

theorem val_lt_of_length_lt {x y : Str} (hx : Canonical x) (hy : Canonical y) (h : x.length < y.length) :
    val x < val y := by
  have h1 := val_lt x hx.2.1
  have hx1 : 1 ≤ x.length := List.length_pos_iff.2 hx.1
  have h2 := le_val hy (by omega)
  have h3 : 10 ^ x.length ≤ 10 ^ (y.length - 1) := Nat.pow_le_pow_right (by omega) (by omega)
  omega

/-- On numerals, the string comparison is the comparison of the numbers. -/
theorem cmpInt_eq {x y : Str} (hx : Canonical x) (hy : Canonical y) :
    cmpInt x y = sgn (compare (val x) (val y)) := by
  unfold cmpInt
  split
  · rename_i h; subst h; rw [Nat.compare_eq_eq.2 rfl]; rfl
  · rename_i hne
    split
    · rename_i h
      rw [compare_lt (val_lt_of_length_lt hx hy h)]; rfl
    · split
      · rename_i h
        rw [compare_gt (val_lt_of_length_lt hy hx h)]; rfl
      · have hl : x.length = y.length := by omega
        have hc := compare_same_length x y hx.2.1 hy.2.1 hl
        rw [← hc]
        have hne' : compare x y ≠ .eq := fun h => hne (Std.LawfulEqOrd.eq_of_compare h)
        unfold strLt
        cases h : compare x y
        · rfl
        · exact absurd h hne'
        · rfl

theorem cmpInt_eq_zero {x y : Str} : cmpInt x y = 0 ↔ x = y := by
  unfold cmpInt
  split
  · rename_i h; simp [h]
  · rename_i h
    repeat' split
    all_goals simp [h]

/-- A numeral is determined by its value. -/
theorem canonical_inj {x y : Str} (hx : Canonical x) (hy : Canonical y) (h : val x = val y) : x = y := by
  rw [← cmpInt_eq_zero, cmpInt_eq hx hy, h, Nat.compare_eq_eq.2 rfl]; rfl

theorem digit_toDigits {c : Char} {n : Nat} (h : c ∈ Nat.toDigits 10 n) : isDig c = true := by
  have := Nat.isDigit_of_mem_toDigits (by decide) (by decide) h
  rw [isDig_iff]
  simp [Char.isDigit, UInt32.le_iff_toNat_le] at this
  exact this

theorem head_toDigits (n : Nat) : (Nat.toDigits 10 n).head? = some '0' → n = 0 := by
  induction n using Nat.strongRecOn with
  | _ n ih =>
    by_cases h : n < 10
    · rw [Nat.toDigits_of_lt_base h]
      intro h2
      simp at h2
      match n, h with
      | 0, _ => rfl
      | 1, _ | 2, _ | 3, _ | 4, _ | 5, _ | 6, _ | 7, _ | 8, _ | 9, _ => simp [Nat.digitChar] at h2
      | _ + 10, h => omega
    · rw [Nat.toDigits_of_base_le (by decide) (by omega)]
      intro h2
      have hn : Nat.toDigits 10 (n / 10) ≠ [] := Nat.toDigits_ne_nil
      have h3 : (Nat.toDigits 10 (n / 10)).head? = some '0' := by
        generalize Nat.toDigits 10 (n / 10) = l at h2 hn
        cases l with
        | nil => exact absurd rfl hn
        | cons c l => simpa using h2
      have := ih (n / 10) (by omega) h3
      omega

theorem canonical_toDigits (n : Nat) : Canonical (Nat.toDigits 10 n) := by
  refine ⟨Nat.toDigits_ne_nil, fun c hc => digit_toDigits hc, ?_⟩
  intro h
  rw [head_toDigits n h]; rfl

theorem toDigits_val {x : Str} (hx : Canonical x) : Nat.toDigits 10 (val x) = x :=
  canonical_inj (canonical_toDigits _) hx Nat.ofDigitChars_ten_toDigits

theorem cmpInt_toDigits (m n : Nat) : cmpInt (Nat.toDigits 10 m) (Nat.toDigits 10 n) = sgn (compare m n) := by
  rw [cmpInt_eq (canonical_toDigits m) (canonical_toDigits n)]
  unfold val
  rw [Nat.ofDigitChars_ten_toDigits, Nat.ofDigitChars_ten_toDigits]

end Verif.Support
