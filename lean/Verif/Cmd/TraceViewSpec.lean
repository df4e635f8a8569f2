import Verif.Cmd.TraceView
/-
What the viewer should show of a trace file.
-/
namespace Verif.Cmd.TraceView.Spec
open Verif.Runtime.TraceJson Verif.Cmd.TraceView

/-! ### The page as a browser shows it -/

/-- A list of items, each with an identity, a label and the list under it. -/
inductive View
  | nil
  | node (id : Nat) (l : Label) (kids rest : View)
deriving DecidableEq

/-- Where the next item of a list begins, if there is one: within `<li>` if `sub`. -/
def start : Bool → List Line → Option (Nat × Label × List Line)
  | true, .li :: .head i l :: r => some (i, l, r)
  | false, .head i l :: r => some (i, l, r)
  | _, _ => none

/-- Whether a list opens here, and of which item. -/
def opens : List Line → Option (Nat × List Line)
  | .openList i :: r => some (i, r)
  | _ => none

/-- What follows the end of a list. -/
def closes : List Line → Option (List Line)
  | .endList :: r => some r
  | _ => none

/-- What follows the end of an item. -/
def leaves : Bool → List Line → Option (List Line)
  | true, .endLi :: r => some r
  | true, _ => none
  | false, r => some r

/-- Reading the items of a list from the lines: the items and what follows them. The list under an item carries the identity of the
    item. -/
def outline : Nat → Bool → List Line → Option (View × List Line)
  | 0, _, _ => none
  | n + 1, sub, ls => match start sub ls with
    | none => some (.nil, ls)
    | some (i, l, r) =>
      let under : Option (View × List Line) := match opens r with
        | some (i', r') => if i' = i then (outline n true r').bind fun p => (closes p.2).map fun r'' => (p.1, r'') else none
        | none => some (.nil, r)
      under.bind fun k => (leaves sub k.2).bind fun r'' => (outline n sub r'').map fun p => (.node i l k.1 p.1, p.2)

/-- The lines of the list, apart from the title and the script. -/
def listing : List Line → List Line
  | [] => []
  | .title _ :: r => listing r
  | .data _ _ :: r => listing r
  | .push _ :: r => listing r
  | l :: r => l :: listing r

/-- What a browser makes of the page. -/
def shown (ls : List Line) : Option View :=
  (outline ((listing ls).length + 1) false (listing ls)).bind fun p => if p.2 = [] then some p.1 else none

/-! ### Costs -/

/-- The units and their sizes in nanoseconds. -/
def sizes : List (String × Nat) :=
  [("ns", 1), ("μs", 1000), ("ms", 1000000), ("s", 1000000000), ("m", 60000000000), ("h", 3600000000000), ("d", 86400000000000)]

/-- The text of the time from `b` to `e`: nothing if both are zero; otherwise the whole number of the largest unit that fits, with a sign if
    the time is negative. -/
def CostText (b e : Int) (t : String) : Prop :=
  (b = 0 ∧ e = 0 ∧ t = "") ∨
  (¬ (b = 0 ∧ e = 0) ∧ ∃ u size n, (u, size) ∈ sizes ∧ n * size ≤ (e - b).natAbs ∧ (e - b).natAbs < (n + 1) * size ∧
    (∀ u' size', (u', size') ∈ sizes → size' ≤ (e - b).natAbs → size' ≤ size) ∧ (size ≤ (e - b).natAbs ∨ size = 1) ∧
    t = (if e < b then "-" else "") ++ toString n ++ u)

/-! ### The entries -/

/-- The label of an entry: its function, or `<unknown>`; the marks of a panic and of an error; the time it took; the means to fold it. -/
def Says (e : Entry) (folds : Prop) (l : Label) : Prop :=
  ((∃ f, e.info = some f ∧ f.name ≠ [] ∧ l.name = f.name) ∨ ((∀ f, e.info = some f → f.name = []) ∧ l.name = lit "<unknown>")) ∧
  l.panic = e.panic ∧ (l.error = true ↔ e.error ≠ []) ∧ CostText e.beginNs e.endNs l.cost ∧ (l.toggle = true ↔ folds)

/-- The view shows the calls of the forest, each under its caller and in order, numbered from `n` on in the order of the lines (the number
    behind the last is the last argument); `data` has the entry of each under its number. -/
inductive Shows (data : Nat → Option Entry) : Nat → Forest → View → Nat → Prop
  | nil {n} : Shows data n .nil .nil n
  | node {n p e l kids rest vk vr m k} : data n = some e → Says e (kids ≠ .nil) l → Shows data (n + 1) kids vk m → Shows data m rest vr k →
      Shows data n (.node p e kids rest) (.node n l vk vr) k

/-- The same for the stacks of a file, each under an item of its own with the given name. -/
inductive ShowsStacks (data : Nat → Option Entry) : Nat → List (Str × Stack) → View → Nat → Prop
  | nil {n} : ShowsStacks data n [] .nil n
  | cons {n name s l r vk vr m k} : (∃ e f, data n = some e ∧ e.info = some f ∧ f.name = lit "<root>") →
      l.name = name → l.panic = false → l.error = false → l.cost = "" → (l.toggle = true ↔ s.children ≠ .nil) →
      Shows data (n + 1) s.children vk m → ShowsStacks data m r vr k →
      ShowsStacks data n ((name, s) :: r) (.node n l vk vr) k

/-- The names of the stacks: numbered from 0, if there are several. -/
def titled (stacks : List Stack) : List (Str × Stack) :=
  match stacks with
  | [s] => [(lit "<root>", s)]
  | l => l.zipIdx.map fun p => (lit s!"<root_{p.2}>", p.1)

/-- The addresses of the entries. -/
def ptrs : Forest → List Ptr
  | .nil => []
  | .null rest => ptrs rest
  | .node p _ kids rest => p :: (ptrs kids ++ ptrs rest)

/-- No entry is `null`. -/
def Whole : Forest → Prop
  | .nil => True
  | .null _ => False
  | .node _ _ kids rest => Whole kids ∧ Whole rest

/-- The stacks are trees: every entry is given, and stands in one place. -/
def Trees (stacks : List Stack) : Prop :=
  (stacks.flatMap fun s => ptrs s.children).Nodup ∧ ∀ s ∈ stacks, ∀ p ∈ ptrs s.children, ∃ n, p = .given n

/-! ### Texts -/

/-- Runes only. -/
def Runes (s : Str) : Prop := ∀ x ∈ s, ∃ c, x = .rune c

mutual
/-- What `encoding/json` reads: strings of runes, numbers that are not empty. -/
inductive Clean : Json → Prop
  | null : Clean .null
  | bool {b} : Clean (.bool b)
  | num {t} : t ≠ [] → (∀ c ∈ t, numeric (.rune c) = true) → Clean (.num t)
  | str {s} : Runes s → Clean (.str s)
  | arr {l} : CleanList l → Clean (.arr l)
  | obj {l} : CleanFields l → Clean (.obj l)
inductive CleanList : List Json → Prop
  | nil : CleanList []
  | cons {j l} : Clean j → CleanList l → CleanList (j :: l)
inductive CleanFields : List (Str × Json) → Prop
  | nil : CleanFields []
  | cons {k j l} : Runes k → Clean j → CleanFields l → CleanFields ((k, j) :: l)
end

/-- The texts and values of an entry are such. -/
def CleanEntry (e : Entry) : Prop :=
  Clean e.args ∧ Clean e.results ∧ Runes e.error ∧
  ∀ f, e.info = some f → Runes f.kind ∧ Runes f.pkg ∧ Runes f.name ∧ Runes f.recvType ∧ Runes f.file ∧ Runes f.recvName ∧
    (∀ l, f.argNames = some l → ∀ s ∈ l, Runes s) ∧ (∀ l, f.resNames = some l → ∀ s ∈ l, Runes s)

/-- The character references of HTML that are needed. -/
def reference : Str → Option (Ch × Str)
  | .rune '&' :: .rune 'a' :: .rune 'm' :: .rune 'p' :: .rune ';' :: r => some (.rune '&', r)
  | .rune '&' :: .rune '#' :: .rune '3' :: .rune '9' :: .rune ';' :: r => some (.rune '\'', r)
  | .rune '&' :: .rune 'l' :: .rune 't' :: .rune ';' :: r => some (.rune '<', r)
  | .rune '&' :: .rune 'g' :: .rune 't' :: .rune ';' :: r => some (.rune '>', r)
  | .rune '&' :: .rune '#' :: .rune '3' :: .rune '4' :: .rune ';' :: r => some (.rune '"', r)
  | _ => none

/-- The text a browser shows for a piece of a page without tags. -/
inductive Displays : Str → Str → Prop
  | nil : Displays [] []
  | ref {s c r t} : reference s = some (c, r) → Displays r t → Displays s (c :: t)
  | plain {c r t} : c ≠ .rune '&' → c ≠ .rune '<' → Displays r t → Displays (c :: r) (c :: t)

/-! ### Files -/

/-- The value before does not go on here: no number is followed by another without a blank. -/
def Ends (t : Str) : Prop := ∀ c ∈ t.head?, numeric c = false

/-- The file holds these values one after another, with blanks between, and then `tail`. -/
inductive File : Str → List Json → Str → Prop
  | tail {s} : File s [] s
  | blank {c s js t} : blank c = true → File s js t → File (c :: s) js t
  | value {c t j rest js tl} : blank c = false → parse (c :: t) = some j → Ends rest → File rest js tl → File (c :: t ++ rest) (j :: js) tl

/-- The beginning of an object, cut somewhere before its end. -/
def CutObject (s : Str) : Prop := ∃ t, s = .rune '{' :: t ∧ ∃ more j, parse (s ++ more) = some j ∧ skip more ≠ []

/-- A character that ends no line of a script, opens no tag and begins no character reference. -/
def Inert (x : Ch) : Prop := ∃ c, x = .rune c ∧ 32 ≤ c.toNat ∧ c ≠ '<' ∧ c ≠ '>' ∧ c ≠ '&' ∧ c.toNat ≠ 0x2028 ∧ c.toNat ≠ 0x2029

/-! ### The older format -/

/-- No entry is `null` or without its function. -/
def OldWhole : OldForest → Prop
  | .nil => True
  | .null _ => False
  | .node _ e kids rest => e.info ≠ none ∧ OldWhole kids ∧ OldWhole rest

/-- The same calls: each with its times, arguments, results, panic and error, under the name it is known by. -/
inductive Carries : OldForest → Forest → Prop
  | nil : Carries .nil .nil
  | node {p e o e' f kids rest k r} : e.info = some o → e'.info = some f → f.name = o.identityName → { f with name := o.shared.name } = o.shared →
      e'.beginNs = e.begin → e'.endNs = e.stop → e'.args = e.args → e'.results = e.results → e'.panic = e.panic → e'.error = e.error →
      Carries kids k → Carries rest r → Carries (.node p e kids rest) (.node (.given p) e' k r)

end Verif.Cmd.TraceView.Spec
