/-
What the commands of a patch file mean, after PATCH_DSL.md: where a positioning command points to, and what the editing
commands after it do there. The definitions use the syntax tree and the commands, not the functions of the model.
-/
import Verif.Instrument.PatchApply
import Verif.Instrument.PatchSpec

namespace Verif.Instrument.PatchApply.Spec
open Verif.Text
open Verif.Instrument.PatchText.Spec

/-! ### Places -/

/-- Between two offsets `t` first occurs at `i`. -/
def FirstAt (s : Str) (a b : Nat) (t : Str) (i : Nat) : Prop :=
  (∃ x y, (s.take b).drop a = x ++ t ++ y ∧ i = a + x.length) ∧
  ∀ x y, (s.take b).drop a = x ++ t ++ y → i ≤ a + x.length

/-- Between two offsets `t` last occurs at `i`. -/
def LastAt (s : Str) (a b : Nat) (t : Str) (i : Nat) : Prop :=
  (∃ x y, (s.take b).drop a = x ++ t ++ y ∧ i = a + x.length) ∧
  ∀ x y, (s.take b).drop a = x ++ t ++ y → a + x.length ≤ i

/-- `t` does not occur between two offsets. -/
def NotIn (s : Str) (a b : Nat) (t : Str) : Prop := ¬ t <:+: (s.take b).drop a

/-- The first element with a property. -/
def FirstOf {α : Type} (p : α → Prop) (l : List α) (x : α) : Prop :=
  ∃ l1 l2, l = l1 ++ x :: l2 ∧ p x ∧ ∀ y ∈ l1, ¬ p y

/-- An offset is in a node, or at its end. -/
def In (sp : Span) (pos : Nat) : Prop := sp.pos ≤ pos ∧ pos ≤ sp.fin

/-- The declarations of a file, and the specs of a declaration, follow each other in the text. -/
def Separate (l : List Span) : Prop := l.Pairwise fun a b => a.fin < b.pos

structure WellFormed (file : File) : Prop where
  decls : Separate (file.map Decl.span)
  types : ∀ sp specs, Decl.types sp specs ∈ file → Separate (specs.map TypeSpec.span)
  values : ∀ sp specs, Decl.values sp specs ∈ file → Separate specs

/-- The node at a place: the declaration; inside it, the type or value spec; inside that, the type. -/
inductive NodeAt (file : File) (pos : Nat) : Node → Prop
  | file (h : ∀ d ∈ file, ¬ In d.span pos) : NodeAt file pos .file
  | func {f} (hm : .func f ∈ file) (h : In f.span pos) : NodeAt file pos (.decl (.func f))
  | type {sp specs t} (hm : .types sp specs ∈ file) (h : In sp pos) (ht : t ∈ specs) (hi : In t.span pos)
      (hj : In t.type.span pos) : NodeAt file pos (.type t.type)
  | typeSpec {sp specs t} (hm : .types sp specs ∈ file) (h : In sp pos) (ht : t ∈ specs) (hi : In t.span pos)
      (hj : ¬ In t.type.span pos) : NodeAt file pos (.typeSpec t)
  | types {sp specs} (hm : .types sp specs ∈ file) (h : In sp pos) (ht : ∀ t ∈ specs, ¬ In t.span pos) :
      NodeAt file pos (.decl (.types sp specs))
  | valueSpec {sp specs t} (hm : .values sp specs ∈ file) (h : In sp pos) (ht : t ∈ specs) (hi : In t pos) :
      NodeAt file pos (.valueSpec t)
  | values {sp specs} (hm : .values sp specs ∈ file) (h : In sp pos) (ht : ∀ t ∈ specs, ¬ In t pos) :
      NodeAt file pos (.decl (.values sp specs))

/-- The text a search looks in. -/
inductive ScopeOf (s : Str) : Node → Nat → Nat → Prop
  | file : ScopeOf s .file 0 s.length
  | decl (d) : ScopeOf s (.decl d) d.span.pos d.span.fin
  | typeSpec (t) : ScopeOf s (.typeSpec t) t.span.pos t.span.fin
  | valueSpec (t) : ScopeOf s (.valueSpec t) t.pos t.fin
  | type (t) : ScopeOf s (.type t) t.span.pos t.span.fin

/-- A declaration of a struct, or of an interface. -/
def IsStruct (t : TypeSpec) : Prop := ∃ sp l r names, t.type = .struct sp l r names
def IsInterface (t : TypeSpec) : Prop := ∃ sp l r, t.type = .iface sp l r

/-- A type spec of the file. -/
def typesOf : File → List TypeSpec
  | [] => []
  | .types _ specs :: l => specs ++ typesOf l
  | _ :: l => typesOf l

/-- The functions of the file. -/
def funcsOf : File → List FuncDecl
  | [] => []
  | .func f :: l => f :: funcsOf l
  | _ :: l => funcsOf l

/-- The braces of a declaration. -/
inductive Braces : Node → Nat → Nat → Prop
  | func {f : FuncDecl} {l r} (h : f.body = some (l, r)) : Braces (.decl (.func f)) l r
  | struct {t : TypeSpec} {sp l r names} (h : t.type = .struct sp l r names) : Braces (.typeSpec t) l r
  | iface {t : TypeSpec} {sp l r} (h : t.type = .iface sp l r) : Braces (.typeSpec t) l r

/-- Names in `goto` commands can have spaces around them. -/
def Names (arg name : Str) : Prop := trimSpace arg = name

/-- `Points s file c cmd c'`: with the cursor at `c`, the positioning command `cmd` moves it to `c'`. -/
inductive Points (s : Str) (file : File) (c : Cursor) : Command → Cursor → Prop
  | func {arg n f} (hn : Names arg n) (hp : n.head? ≠ some '(')
      (h : FirstOf (fun f => f.name = n ∧ ∀ sp, f.recv ≠ some (sp, true)) (funcsOf file) f) :
      Points s file c (.goto ("func ".toList ++ arg)) ⟨f.span.pos, f.span.pos, false⟩
  | method {arg w x n f} (hn : Names arg ('(' :: w ++ [')'] ++ x)) (hw : ')' ∉ w) (hx : Names x n)
      (h : FirstOf (fun f => f.name = n ∧ ∃ sp, f.recv = some (sp, true) ∧
        w <:+: trimSpace ((s.take sp.fin).drop sp.pos)) (funcsOf file) f) :
      Points s file c (.goto ("func ".toList ++ arg)) ⟨f.span.pos, f.span.pos, false⟩
  | struct {arg n t} (hn : Names arg n) (h : FirstOf (fun t => t.name = n ∧ IsStruct t) (typesOf file) t) :
      Points s file c (.goto ("struct ".toList ++ arg)) ⟨t.span.pos, t.span.pos, false⟩
  | iface {arg n t} (hn : Names arg n) (h : FirstOf (fun t => t.name = n ∧ IsInterface t) (typesOf file) t) :
      Points s file c (.goto ("interface ".toList ++ arg)) ⟨t.span.pos, t.span.pos, false⟩
  | opening {nd l r} (hn : NodeAt file c.offset nd) (h : Braces nd l r) :
      Points s file c (.goto "opening {".toList) ⟨l, l + 1, false⟩
  | closing {nd l r} (hn : NodeAt file c.offset nd) (h : Braces nd l r) :
      Points s file c (.goto "closing }".toList) ⟨r, r + 1, false⟩
  | field {arg n t sp l r names p} (hn : Names arg n) (ht : NodeAt file c.offset (.typeSpec t))
      (hs : t.type = .struct sp l r names) (h : FirstOf (fun x => x.1 = n) names p) :
      Points s file c (.goto ("field ".toList ++ arg)) ⟨p.2, p.2, false⟩
  | search {t nd a b i} (hn : NodeAt file c.offset nd) (hs : ScopeOf s nd a b) (h : FirstAt s a b t i) :
      Points s file c (.search t) ⟨i, i + t.length, false⟩
  | findBack {t nd a b i} (hn : NodeAt file c.offset nd) (hs : ScopeOf s nd a b) (hc : a < c.offset ∧ c.offset ≤ b)
      (h : LastAt s a c.offset t i) : Points s file c (.findForReplace t) ⟨i, i + t.length, true⟩
  | find {t nd a b i} (hn : NodeAt file c.offset nd) (hs : ScopeOf s nd a b)
      (hc : a < c.offset ∧ c.offset ≤ b → NotIn s a c.offset t) (h : FirstAt s a b t i) :
      Points s file c (.findForReplace t) ⟨i, i + t.length, true⟩

/-! ### Edits -/

/-- An edit of a text: the text `old` at the offset `start` is replaced by `new`; an insertion if `old` is empty. -/
structure Edit where
  start : Nat
  old : Str
  new : Str

/-- Edits of `s` from the offset `c` on, in the order of the text and not overlapping. -/
def InOrder (s : Str) : Nat → List Edit → Prop
  | _, [] => True
  | c, e :: es => c ≤ e.start ∧ e.start + e.old.length ≤ s.length ∧ (s.drop e.start).take e.old.length = e.old ∧
    InOrder s (e.start + e.old.length) es

/-- The end of the last edit. -/
def endOf : Nat → List Edit → Nat
  | c, [] => c
  | _, e :: es => endOf (e.start + e.old.length) es

/-- The unchanged text and the marked edits. -/
def marked (label s : Str) : Nat → List Edit → List (Str × Mark)
  | _, [] => []
  | c, e :: es => ((s.take e.start).drop c, .region label e.old e.new) :: marked label s (e.start + e.old.length) es

/-- The text with the edits made and marked. -/
def patched (label s : Str) (es : List Edit) : Patched := ⟨marked label s 0 es, s.drop (endOf 0 es)⟩

/-- Texts inserted by commands of one kind, each followed by any number of `newline` commands. -/
inductive Texts (cmd : Str → Command) : List Command → Str → Prop
  | nil : Texts cmd [] []
  | cons {cs t r} (k : Nat) (ht : t ≠ []) (h : Texts cmd cs r) :
      Texts cmd (cmd t :: (List.replicate k Command.newline ++ cs)) (t ++ List.replicate k '\n' ++ r)

/-- What the editing commands at one place do; `last` says that this is the last place of the block. -/
inductive Does (s : Str) (c : Cursor) : Bool → List Command → List Edit → Prop
  | nothing {last} : Does s c last [] []
  | before {last t} (k : Nat) (ht : t ≠ []) :
      Does s c last (.insertBefore t :: List.replicate k .newline) [⟨c.offset, [], t ++ List.replicate k '\n'⟩]
  | after {cs t} (h : Texts .insertAfter cs t) (ht : t ≠ []) :
      Does s c true cs [⟨c.endOffset, [], t⟩]
  | afterLine {t} (k : Nat) (ht : t ≠ []) (hl : s[c.endOffset]? = some '\n') :
      Does s c true (.insertAfterLine t :: List.replicate k .newline) [⟨c.endOffset + 1, [], t ++ List.replicate k '\n'⟩]
  | replace {last cs t} (hc : c.isReplace = true) (h : Texts .replace cs t) (ht : t ≠ []) :
      Does s c last cs [⟨c.offset, (s.take c.endOffset).drop c.offset, t⟩]

/-- A place in a block: the command that moves the cursor there, and the editing commands that follow. -/
structure Stop where
  move : Command
  edits : List Command

/-- The commands of a block. -/
def commands (stops : List Stop) : List Command := stops.flatMap fun st => st.move :: st.edits

/-- The edits of a block, with the cursor at `c` before it. -/
inductive Visits (s : Str) (file : File) : Cursor → List Stop → List Edit → Prop
  | nil {c} : Visits s file c [] []
  | cons {c c' st l es es'} (hp : Points s file c st.move c') (hd : Does s c' l.isEmpty st.edits es)
      (h : Visits s file c' l es') : Visits s file c (st :: l) (es ++ es')

end Verif.Instrument.PatchApply.Spec
