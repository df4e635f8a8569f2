import Verif.Runtime.TraceJson
/-
What a trace should say about the values of a call.
-/
namespace Verif.Runtime.TraceJson.Spec

/-- What is known of `strconv.IsPrint`: of the characters of ASCII, those from the blank to the tilde. -/
def AsciiPrint (pr : Char → Bool) : Prop := ∀ c : Char, c.toNat < 128 → (pr c = true ↔ 32 ≤ c.toNat ∧ c.toNat ≠ 127)

/-- A text that Go and JSON quote alike: no stray bytes, no control characters but backspace, form feed, newline, carriage return and
    tab, and beyond the basic plane only printable characters. -/
def Plain (pr : Char → Bool) (s : Str) : Prop :=
  ∀ x ∈ s, ∃ c, x = .rune c ∧ (pr c = true ∨ c = '\x08' ∨ c = '\x0c' ∨ c = '\n' ∨ c = '\r' ∨ c = '\t' ∨ (128 ≤ c.toNat ∧ c.toNat < 65536))

/-- What the trace should say about a value, if it can: its JSON; the beginning of it, as a text, if it is longer than the limit; the
    error, if it has none. -/
inductive Says (pr : Char → Bool) (limit : Nat) : Outcome → Json → Prop
  | value {t j} : parse t = some j → size t ≤ limit → Says pr limit (.ok t) j
  | long {t} : limit < size t → Plain pr (take limit t) → Says pr limit (.ok t) (.str (take limit t))
  | err {m} : Plain pr m → 16 + 6 * m.length ≤ limit → Says pr limit (.err m) (.obj [(lit "error", .str m)])
  | panic {m st} : Plain pr m → Plain pr st → 64 + 6 * (m.length + st.length) ≤ limit →
      Says pr limit (.panic m st) (.obj [(lit "error", .str m), (lit "stackTrace", .str st)])

/-- The texts that spoil a record: an error, panic or stack with other characters; a long value with such, or cut within a character. -/
inductive Spoils (pr : Char → Bool) (limit : Nat) : Outcome → Prop
  | long {t} : limit < size t → ¬ Plain pr (take limit t) → Spoils pr limit (.ok t)
  | err {m} : ¬ Plain pr m → 16 + 10 * m.length ≤ limit → Spoils pr limit (.err m)
  | panic {m st} : ¬ (Plain pr m ∧ Plain pr st) → 64 + 10 * (m.length + st.length) ≤ limit → Spoils pr limit (.panic m st)

/-- A record of all fields, each under its name, in order; a field without a name is numbered. -/
inductive Shows (pr : Char → Bool) (limit : Nat) : Nat → List (Str × Outcome) → List (Str × Json) → Prop
  | nil {i} : Shows pr limit i [] []
  | named {i name v j fs js} : name ≠ [] → Says pr limit v j → Shows pr limit (i + 1) fs js →
      Shows pr limit i ((name, v) :: fs) ((name, j) :: js)
  | numbered {i v j fs js} : Says pr limit v j → Shows pr limit (i + 1) fs js →
      Shows pr limit i (([], v) :: fs) ((lit ("__field_" ++ toString i), j) :: js)

end Verif.Runtime.TraceJson.Spec
