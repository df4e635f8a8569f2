import Verif.Instrument.VarTypeMain
/-
C73: programs for which the theorems say something, and programs for which the claim fails.
-/
namespace Verif.Instrument.VarType
open Spec

/-! ### Programs given by lists -/

structure Entry where
  pkg : Str
  xtest : Bool
  name : Str
  decl : Decl

def prog (l : List Entry) : Prog := fun p b x =>
  (l.find? fun e => e.pkg == p && e.xtest == b && e.name == x).map (·.decl)

/-- Every declaration is met first in its own file. -/
def own (P : Prog) : Seen := fun p x => .mk p (match P p false x with | some d => d.imports | none => []) .nil

theorem seen_own (P : Prog) : SeenOk P (own P) := by
  intro p x d hd
  refine ⟨rfl, fun y _ => ⟨fun t h => by simp [own, Scope.locals, Locals.look] at h, Or.inr ?_⟩⟩
  simp [own, Scope.imports, hd]

instance (x : Str) : Decidable (Predeclared x) := inferInstanceAs (Decidable (_ ∨ _ ∨ _ ∨ _ ∨ _))

def okB (l : List Entry) : Bool :=
  l.all fun e => (e.decl.imports.all fun i => !decide (Predeclared i.1) && (prog l e.pkg false i.1).isNone && (prog l e.pkg true i.1).isNone) &&
    (!e.xtest || ((prog l e.pkg false e.name).isNone && !decide (Predeclared e.name)))

theorem prog_mem {l : List Entry} {p x : Str} {b : Bool} {d : Decl} (h : prog l p b x = some d) : ⟨p, b, x, d⟩ ∈ l := by
  unfold prog at h
  rw [Option.map_eq_some_iff] at h
  obtain ⟨e, h1, h2⟩ := h
  have h3 := List.find?_some h1
  simp only [Bool.and_eq_true, beq_iff_eq] at h3
  obtain ⟨⟨rfl, rfl⟩, rfl⟩ := h3
  rw [← h2]
  exact List.mem_of_find?_eq_some h1

theorem ok_prog {l : List Entry} (h : okB l = true) : ProgOk (prog l) := by
  unfold okB at h
  rw [List.all_eq_true] at h
  constructor
  · intro p xt x d hd y q hq
    have h1 := h _ (prog_mem hd)
    simp only [Bool.and_eq_true, List.all_eq_true] at h1
    have h2 := h1.1 (y, q) (mem_of_lookup hq)
    simp only [Bool.not_eq_true', decide_eq_false_iff_not, Option.isNone_iff_eq_none] at h2
    exact ⟨h2.1.1, fun b => by cases b; exact h2.1.2; exact h2.2⟩
  · intro p x d hd
    have h1 := h _ (prog_mem hd)
    simp only [Bool.and_eq_true, Bool.or_eq_true, Bool.not_true, Bool.false_eq_true, false_or, Option.isNone_iff_eq_none,
      Bool.not_eq_true', decide_eq_false_iff_not] at h1
    exact h1.2

def fileB (l : List Entry) (p : Str) (im : Imports) : Bool :=
  (l.all fun e => !decide (e.pkg = p ∧ e.xtest = false) || (!decide (Predeclared e.name) && !pre.isPrefixOf e.name)) &&
  im.all fun i => !pre.isPrefixOf i.1

theorem file_prog {l : List Entry} {p : Str} {im : Imports} (h : fileB l p im = true) : FileOk (prog l) p im := by
  unfold fileB at h
  simp only [Bool.and_eq_true, List.all_eq_true, Bool.or_eq_true, Bool.not_eq_true', decide_eq_false_iff_not] at h
  have none_of : ∀ x, (∀ d, prog l p false x = some d → False) → prog l p false x = none := by
    intro x hx
    cases hp : prog l p false x with
    | none => rfl
    | some d => exact (hx d hp).elim
  constructor
  · intro x hx
    refine none_of x fun d hd => ?_
    rcases h.1 _ (prog_mem hd) with h1 | h1
    · exact h1 ⟨rfl, rfl⟩
    · exact h1.1 hx
  · intro x hx
    have hp : pre.isPrefixOf x = true := List.isPrefixOf_iff_prefix.mpr hx
    refine ⟨none_of x fun d hd => ?_, ?_⟩
    · rcases h.1 _ (prog_mem hd) with h1 | h1
      · exact h1 ⟨rfl, rfl⟩
      · simp only at h1; rw [hp] at h1; exact absurd h1.2 (by decide)
    · rw [List.lookup_eq_none_iff]
      intro e he
      rw [bne_iff_ne]
      intro hh
      have := h.2 e he
      rw [← hh, hp] at this
      cases this

/-! ### A program -/

abbrev s (x : String) : Str := x.toList

def im0 : Imports := [(s "time", s "time"), (s "lib", s "m/lib")]

/-- Package `app`: `type T struct{}; func New() *T; var A = New(); var B = time.Duration(3); var C = map[string]*lib.Item{};
    var D = 2 * time.Second; var E time.Duration; var F = func() T {...}`. -/
def sample : List Entry := [
  ⟨s "app", false, s "T", ⟨.typ false .structT, im0⟩⟩,
  ⟨s "app", false, s "New", ⟨.func (.cons 0 (.star (.ident (s "T"))) .nil), im0⟩⟩,
  ⟨s "app", false, s "A", ⟨.var false none (some (.call (.ident (s "New")) .nil)) false 0, im0⟩⟩,
  ⟨s "app", false, s "B", ⟨.var false none (some (.call (.sel (s "time") (s "Duration")) (.cons 0 (.lit .int) .nil))) false 0, im0⟩⟩,
  ⟨s "app", false, s "C", ⟨.var false none (some (.comp (.mapT (.ident (s "string")) (.star (.sel (s "lib") (s "Item")))))) false 0, im0⟩⟩,
  ⟨s "app", false, s "D", ⟨.var false none (some (.binary .arith (.lit .int) (.sel (s "time") (s "Second")))) false 0, im0⟩⟩,
  ⟨s "app", false, s "E", ⟨.var false (some (.sel (s "time") (s "Duration"))) none false 0, im0⟩⟩,
  ⟨s "app", false, s "F", ⟨.var false none (some (.func (.cons 0 (.ident (s "T")) .nil))) false 0, im0⟩⟩,
  ⟨s "time", false, s "Duration", ⟨.typ false (.ident (s "int64")), []⟩⟩,
  ⟨s "time", false, s "Second", ⟨.var true (some (.ident (s "Duration"))) (some (.lit .int)) false 0, []⟩⟩,
  ⟨s "m/lib", false, s "Item", ⟨.typ false .structT, []⟩⟩]

def vars : List Var := [⟨s "A", 3, 5⟩, ⟨s "B", 4, 5⟩, ⟨s "C", 5, 5⟩, ⟨s "D", 6, 5⟩, ⟨s "E", 7, 5⟩, ⟨s "F", 8, 5⟩]

theorem sample_ok : ProgOk (prog sample) := ok_prog (by decide +kernel)
theorem sample_file : FileOk (prog sample) (s "app") im0 := file_prog (by decide +kernel)

theorem sample_getters : getters (prog sample) (own (prog sample)) 9 (s "app") {} vars =
    ([(⟨s "A", 3, 5⟩, some (.text (s "*T"))),
      (⟨s "B", 4, 5⟩, some (.text (s "__xgo_var_ref_4_5.Duration"))),
      (⟨s "C", 5, 5⟩, some (.text (s "map[string]*__xgo_var_ref_5_5_1.Item"))),
      (⟨s "D", 6, 5⟩, some (.text (s "__xgo_var_ref_4_5.Duration"))),
      (⟨s "E", 7, 5⟩, some (.source (.sel (s "time") (s "Duration")))),
      (⟨s "F", 8, 5⟩, some (.source (.funcT (.cons 0 (.ident (s "T")) .nil))))],
     [(s "__xgo_var_ref_4_5", s "time"), (s "__xgo_var_ref_5_5_1", s "m/lib")]) := by rfl

theorem sample_duration (im : Imports) : Is (prog sample) true ⟨s "time", false, im⟩ (.ident (s "Duration"))
    (.type (.named (s "time") false (s "Duration"))) :=
  Is.defined (env := ⟨s "time", false, im⟩) (e := .ident (s "int64")) (im := []) (by rfl)

theorem sample_time : Is (prog sample) true ⟨s "app", false, im0⟩ (.ident (s "time")) (.pkg (s "time")) :=
  Is.imported (env := ⟨s "app", false, im0⟩) (by rfl) (by rfl)

theorem sample_D : VarIs (prog sample) true (s "app") false (s "D") (.named (s "time") false (s "Duration")) := by
  refine ⟨im0, Is.var (env := ⟨s "app", false, im0⟩) (im := im0) (w := .typed (.named (s "time") false (s "Duration"))) (by rfl) ?_⟩
  refine .constArith (fun _ => rfl) (.lit (fun _ h => by cases h) (k := .int) rfl) ?_
  refine .qualified sample_time (by rfl) (d := ⟨.var true (some (.ident (s "Duration"))) (some (.lit .int)) false 0, []⟩) (by rfl) ?_
  exact Is.declared (env := ⟨s "time", false, []⟩) (c := true) (e := .ident (s "Duration")) (v := some (.lit .int)) (m := false) (i := 0)
    (im := []) (by rfl) (sample_duration [])

/-- `C73_type_partial` speaks about `D`: in the file with the import of `time` under xgo's name, `__xgo_var_ref_4_5.Duration` is the type of `D`. -/
example : Denotes (prog sample) (s "app") im0 [(s "__xgo_var_ref_4_5", s "time"), (s "__xgo_var_ref_5_5_1", s "m/lib")]
    (.text (s "__xgo_var_ref_4_5.Duration")) (.named (s "time") false (s "Duration")) := by
  have h := C73_type_partial (seen := own (prog sample)) sample_ok (seen_own _) 9 (s "app") vars (x := ⟨s "D", 6, 5⟩)
    (c := .text (s "__xgo_var_ref_4_5.Duration")) (im := im0) sample_file (k := .var false none _ false 0) (by rfl) sample_D
    (by rw [sample_getters]; simp)
  rw [sample_getters] at h
  exact h

/-! ### Where the claim fails -/

/-- A text without `*`, `[`, `(`, `.` can only be a name. -/
theorem name_denotes {P : Prog} {p : Str} {im added : Imports} {c : Str} {T : GType}
    (hc : c ≠ [] ∧ '*' ∉ c ∧ '[' ∉ c ∧ '(' ∉ c ∧ '.' ∉ c) (h : Denotes P p im added (.text c) T) :
    Is P false ⟨p, false, added ++ im⟩ (.ident c) (.type T) := by
  obtain ⟨f, hf, h⟩ := h
  cases f with
  | name x => rw [hf]; exact h
  | qual r x => rw [hf] at hc; exact absurd (by simp [Form.print]) hc.2.2.2.2
  | ptr f => rw [hf] at hc; exact absurd (by simp [Form.print]) hc.2.1
  | slice f => rw [hf] at hc; exact absurd (by simp [Form.print]) hc.2.2.1
  | map k v => rw [hf] at hc; exact absurd (by simp [Form.print]) hc.2.2.1
  | tuple fs => cases h

theorem basic_denotes {P : Prog} {p : Str} {im added : Imports} {c : Str} {T : GType}
    (hc : c ≠ [] ∧ '*' ∉ c ∧ '[' ∉ c ∧ '(' ∉ c ∧ '.' ∉ c) (hP : P p false c = none) (h : Denotes P p im added (.text c) T) :
    ∃ b, predeclaredType c = some b ∧ T = .basic b := by
  have h := name_denotes hc h
  cases h with
  | «alias» h1 => simp only at h1; rw [hP] at h1; cases h1
  | defined h1 => simp only at h1; rw [hP] at h1; cases h1
  | basic _ _ h3 => exact ⟨_, h3, rfl⟩

/-- The getters of `x`, a variable of the package `app` of the type `T`, in a file with the imports `im`, have another type. -/
def Fails (l : List Entry) (seen : Seen) (im : Imports) (x : Var) (c : Str) (T : GType) : Prop :=
  ProgOk (prog l) ∧ FileOk (prog l) (s "app") im ∧ VarIs (prog l) false (s "app") false x.name T ∧
  (getters (prog l) seen 9 (s "app") {} [x]).1 = [(x, some (.text c))] ∧
  ¬ Denotes (prog l) (s "app") im (getters (prog l) seen 9 (s "app") {} [x]).2 (.text c) T

def charProg : List Entry := [⟨s "app", false, s "C", ⟨.var false none (some (.lit .char)) false 0, []⟩⟩]

/-- `var C = 'a'` gets getters of type `byte`. -/
theorem C73_char_wrong : Fails charProg (own (prog charProg)) [] ⟨s "C", 3, 5⟩ (s "byte") (.basic (s "int32")) := by
  refine ⟨ok_prog (by decide +kernel), file_prog (by decide +kernel), ?_, rfl, ?_⟩
  · exact ⟨[], Is.var (env := ⟨s "app", false, []⟩) (im := []) (w := .const .rune) (by rfl) (.lit (fun h => by cases h) rfl)⟩
  · intro h
    obtain ⟨b, h1, h2⟩ := basic_denotes (by decide +kernel) (by rfl) h
    injection h2 with h2
    rw [← h2] at h1
    exact absurd h1 (by decide +kernel)

def floatProg : List Entry := [⟨s "app", false, s "X", ⟨.var false none (some (.binary .arith (.lit .float) (.lit .int))) false 0, []⟩⟩]

/-- `var X = 2.5 + 1` gets getters of type `int`. -/
theorem C73_float_wrong : Fails floatProg (own (prog floatProg)) [] ⟨s "X", 3, 5⟩ (s "int") (.basic (s "float64")) := by
  refine ⟨ok_prog (by decide +kernel), file_prog (by decide +kernel), ?_, rfl, ?_⟩
  · exact ⟨[], Is.var (env := ⟨s "app", false, []⟩) (im := []) (w := .const .float) (by rfl)
      (.consts (fun h => by cases h) (k := .float) (k' := .int) (.lit (fun h => by cases h) rfl) (.lit (fun h => by cases h) rfl) rfl)⟩
  · intro h
    obtain ⟨b, h1, h2⟩ := basic_denotes (by decide +kernel) (by rfl) h
    injection h2 with h2
    rw [← h2] at h1
    exact absurd h1 (by decide +kernel)

def constProg : List Entry := sample ++ [⟨s "app", false, s "N", ⟨.var true none (some (.lit .int)) false 0, im0⟩⟩,
  ⟨s "app", false, s "W", ⟨.var false none (some (.binary .arith (.ident (s "N")) (.sel (s "time") (s "Second")))) false 0, im0⟩⟩]

/-- `const N = 2; var W = N * time.Second` gets getters of type `int`. -/
theorem C73_const_wrong : Fails constProg (own (prog constProg)) im0 ⟨s "W", 3, 5⟩ (s "int") (.named (s "time") false (s "Duration")) := by
  refine ⟨ok_prog (by decide +kernel), file_prog (by decide +kernel), ?_, rfl, ?_⟩
  · refine ⟨im0, Is.var (env := ⟨s "app", false, im0⟩) (im := im0) (w := .typed (.named (s "time") false (s "Duration"))) (by rfl) ?_⟩
    refine .constArith (fun h => by cases h) (k := .int) ?_ ?_
    · exact Is.const (env := ⟨s "app", false, im0⟩) (im := im0) (by rfl) (.lit (fun h => by cases h) rfl)
    · refine .qualified (q := s "time") (Is.imported (env := ⟨s "app", false, im0⟩) (by rfl) (by rfl)) (by rfl)
        (d := ⟨.var true (some (.ident (s "Duration"))) (some (.lit .int)) false 0, []⟩) (by rfl) ?_
      exact Is.declared (env := ⟨s "time", false, []⟩) (c := true) (e := .ident (s "Duration")) (v := some (.lit .int)) (m := false) (i := 0)
        (im := []) (by rfl) (Is.defined (env := ⟨s "time", false, []⟩) (e := .ident (s "int64")) (im := []) (by rfl))
  · intro h
    obtain ⟨b, h1, h2⟩ := basic_denotes (by decide +kernel) (by rfl) h
    cases h2

def pairProg : List Entry := [
  ⟨s "os", false, s "LookupEnv", ⟨.func (.cons 0 (.ident (s "string")) (.cons 0 (.ident (s "bool")) .nil)), []⟩⟩,
  ⟨s "app", false, s "home", ⟨.var false none (some (.call (.sel (s "os") (s "LookupEnv")) (.cons 0 (.lit .string) .nil))) true 0, [(s "os", s "os")]⟩⟩,
  ⟨s "app", false, s "ok", ⟨.var false none (some (.call (.sel (s "os") (s "LookupEnv")) (.cons 0 (.lit .string) .nil))) true 1, [(s "os", s "os")]⟩⟩]

/-- `var home, ok = os.LookupEnv("HOME")`: `home` gets getters of type `(string, bool)`. -/
theorem C73_pair_wrong : Fails pairProg (own (prog pairProg)) [(s "os", s "os")] ⟨s "home", 3, 5⟩ (s "(string, bool)") (.basic (s "string")) := by
  refine ⟨ok_prog (by decide +kernel), file_prog (by decide +kernel), ?_, rfl, ?_⟩
  · refine ⟨[(s "os", s "os")], Is.vars (env := ⟨s "app", false, [(s "os", s "os")]⟩) (im := [(s "os", s "os")])
      (f := .sel (s "os") (s "LookupEnv")) (args := .cons 0 (.lit .string) .nil) (i := 0) (env' := ⟨s "os", false, []⟩)
      (T := .func ⟨s "os", false, []⟩ (.cons 0 (.ident (s "string")) (.cons 0 (.ident (s "bool")) .nil))) (e := .ident (s "string")) rfl (by rfl) ?_ .func (by rfl) ?_⟩
    · exact .qualified (q := s "os") (Is.imported (env := ⟨s "app", false, [(s "os", s "os")]⟩) (by rfl) (by rfl)) (by rfl)
        (d := ⟨.func (.cons 0 (.ident (s "string")) (.cons 0 (.ident (s "bool")) .nil)), []⟩) (by rfl)
        (Is.func (env := ⟨s "os", false, []⟩) (by rfl))
    · exact .basic (by rfl) (by rfl) (by decide +kernel)
  · rintro ⟨f, hf, h⟩
    cases f with
    | name x =>
      rw [Form.print] at hf
      subst hf
      cases h with
      | «alias» h1 => exact absurd (show prog pairProg (s "app") false (s "(string, bool)") = none from rfl) (by simp only at h1; rw [h1]; intro h; cases h)
      | basic _ _ h3 => exact absurd h3 (by decide +kernel)
    | qual r x =>
      have : '.' ∈ s "(string, bool)" := by rw [hf]; simp [Form.print]
      exact absurd this (by decide +kernel)
    | ptr f => exact absurd (show '(' = '*' from Option.some.inj (congrArg List.head? hf)) (by decide)
    | slice f => exact absurd (show '(' = '[' from Option.some.inj (congrArg List.head? hf)) (by decide)
    | map k v => exact absurd (show '(' = 'm' from Option.some.inj (congrArg List.head? hf)) (by decide)
    | tuple fs => cases h

/-- Two files of `app`, both importing a package as `template`: one `text/template`, and declaring `var T = template.New()`, the
    other `html/template`, and using `T` in its first function. -/
def twoFiles : List Entry := [
  ⟨s "text/template", false, s "Template", ⟨.typ false .structT, []⟩⟩,
  ⟨s "text/template", false, s "New", ⟨.func (.cons 0 (.ident (s "Template")) .nil), []⟩⟩,
  ⟨s "html/template", false, s "Template", ⟨.typ false .structT, []⟩⟩,
  ⟨s "html/template", false, s "New", ⟨.func (.cons 0 (.ident (s "Template")) .nil), []⟩⟩,
  ⟨s "app", false, s "T", ⟨.var false none (some (.call (.sel (s "template") (s "New")) .nil)) false 0, [(s "template", s "text/template")]⟩⟩]

def twoFilesSeen : Seen := fun p x =>
  if p = s "app" then .mk p [(s "template", s "html/template")] .nil else own (prog twoFiles) p x

/-- `T` gets getters of the type of the other package. -/
theorem C73_files_wrong : VarIs (prog twoFiles) true (s "app") false (s "T") (.named (s "text/template") false (s "Template")) ∧
    getters (prog twoFiles) twoFilesSeen 9 (s "app") {} [⟨s "T", 3, 5⟩] =
      ([(⟨s "T", 3, 5⟩, some (.text (s "__xgo_var_ref_3_5.Template")))], [(s "__xgo_var_ref_3_5", s "html/template")]) ∧
    ¬ Is (prog twoFiles) false ⟨s "app", false, [(s "__xgo_var_ref_3_5", s "html/template"), (s "template", s "text/template")]⟩
      (.sel (s "__xgo_var_ref_3_5") (s "Template")) (.type (.named (s "text/template") false (s "Template"))) := by
  refine ⟨?_, rfl, ?_⟩
  · refine ⟨[(s "template", s "text/template")], Is.var (env := ⟨s "app", false, [(s "template", s "text/template")]⟩)
      (im := [(s "template", s "text/template")]) (w := .typed (.named (s "text/template") false (s "Template"))) (by rfl) ?_⟩
    refine .call (T := .func ⟨s "text/template", false, []⟩ (.cons 0 (.ident (s "Template")) .nil)) ?_ .func (by decide)
      (Is.defined (env := ⟨s "text/template", false, []⟩) (e := .structT) (im := []) (by rfl))
    exact .qualified (q := s "text/template") (Is.imported (env := ⟨s "app", false, [(s "template", s "text/template")]⟩) (by rfl) (by rfl)) (by rfl)
        (d := ⟨.func (.cons 0 (.ident (s "Template")) .nil), []⟩) (by rfl) (Is.func (env := ⟨s "text/template", false, []⟩) (by rfl))
  · intro h
    cases h with
    | qualified h1 h2 h3 h4 =>
      cases h1 with
      | imported g1 g2 =>
        simp only at g2
        rw [show List.lookup (s "__xgo_var_ref_3_5") [(s "__xgo_var_ref_3_5", s "html/template"), (s "template", s "text/template")] =
          some (s "html/template") from rfl] at g2
        injection g2 with g2
        subst g2
        rw [show prog twoFiles (s "html/template") false (s "Template") = some ⟨.typ false .structT, []⟩ from rfl] at h3
        injection h3 with h3
        subst h3
        generalize hT : GType.named (s "text/template") false (s "Template") = T at h4
        cases h4 with
        | «alias» k1 =>
          simp only at k1
          rw [show prog twoFiles (s "html/template") false (s "Template") = some ⟨.typ false .structT, []⟩ from rfl] at k1
          cases k1
        | defined k1 =>
          injection hT with hT
          exact absurd hT (by decide +kernel)
        | basic k1 =>
          cases hT

/-- `func f() int; var V = f()`, and a function with a local `f` that returns a string, before it uses `V`. -/
def localProg : List Entry := [
  ⟨s "app", false, s "f", ⟨.func (.cons 0 (.ident (s "int")) .nil), []⟩⟩,
  ⟨s "app", false, s "V", ⟨.var false none (some (.call (.ident (s "f")) .nil)) false 0, []⟩⟩]

def localSeen : Seen := fun p _ => .mk p [] (.defined (s "f") (.sig (.mk p [] .nil) (.cons 0 (.ident (s "string")) .nil)) .nil)

/-- `V` gets getters of type `string`. -/
theorem C73_local_wrong : Fails localProg localSeen [] ⟨s "V", 3, 5⟩ (s "string") (.basic (s "int")) := by
  refine ⟨ok_prog (by decide +kernel), file_prog (by decide +kernel), ?_, rfl, ?_⟩
  · refine ⟨[], Is.var (env := ⟨s "app", false, []⟩) (im := []) (w := .typed (.basic (s "int"))) (by rfl) ?_⟩
    exact .call (T := .func ⟨s "app", false, []⟩ (.cons 0 (.ident (s "int")) .nil)) (Is.func (env := ⟨s "app", false, []⟩) (by rfl)) .func (by decide)
      (.basic (by rfl) (by rfl) (by decide +kernel))
  · intro h
    obtain ⟨b, h1, h2⟩ := basic_denotes (by decide +kernel) (by rfl) h
    injection h2 with h2
    rw [← h2] at h1
    exact absurd h1 (by decide +kernel)

/-- Package `app` has `type T struct{}`; its external test package `app_test` has `import "app"; var V = app.T{}`. -/
def xtestProg : List Entry := [
  ⟨s "app", false, s "T", ⟨.typ false .structT, []⟩⟩,
  ⟨s "app", true, s "V", ⟨.var false none (some (.comp (.sel (s "app") (s "T")))) false 0, [(s "app", s "app")]⟩⟩]

/-- `V` gets getters of type `T`, which is not declared in `app_test`. -/
theorem C73_xtest_wrong : ProgOk (prog xtestProg) ∧ VarIs (prog xtestProg) true (s "app") true (s "V") (.named (s "app") false (s "T")) ∧
    getters (prog xtestProg) (fun p _ => .mk p [(s "app", s "app")] .nil) 9 (s "app") {} [⟨s "V", 3, 5⟩] =
      ([(⟨s "V", 3, 5⟩, some (.text (s "T")))], []) ∧
    ∀ T, ¬ Is (prog xtestProg) false ⟨s "app", true, [(s "app", s "app")]⟩ (.ident (s "T")) (.type T) := by
  refine ⟨ok_prog (by decide +kernel), ?_, rfl, ?_⟩
  · refine ⟨[(s "app", s "app")], Is.var (env := ⟨s "app", true, [(s "app", s "app")]⟩) (im := [(s "app", s "app")])
      (w := .typed (.named (s "app") false (s "T"))) (by rfl) (.comp ?_)⟩
    exact .qualified (q := s "app") (Is.imported (env := ⟨s "app", true, [(s "app", s "app")]⟩) (by rfl) (by rfl)) (by rfl)
      (d := ⟨.typ false .structT, []⟩) (by rfl) (Is.defined (env := ⟨s "app", false, []⟩) (by rfl))
  · intro T h
    have hn : prog xtestProg (s "app") true (s "T") = none := rfl
    cases h with
    | «alias» h1 => simp only at h1; rw [hn] at h1; cases h1
    | defined h1 => simp only at h1; rw [hn] at h1; cases h1
    | basic _ _ h3 => exact absurd (show predeclaredType (s "T") = none by decide +kernel) (by rw [h3]; intro h; cases h)

/-- `lib.Default()` returns a `*conf.Config` of the package `lib/internal/conf`. -/
def internalProg : List Entry := [
  ⟨s "lib/internal/conf", false, s "Config", ⟨.typ false .structT, []⟩⟩,
  ⟨s "lib", false, s "Default", ⟨.func (.cons 0 (.star (.sel (s "conf") (s "Config"))) .nil), [(s "conf", s "lib/internal/conf")]⟩⟩,
  ⟨s "app", false, s "V", ⟨.var false none (some (.call (.sel (s "lib") (s "Default")) .nil)) false 0, [(s "lib", s "lib")]⟩⟩]

/-- `var V = lib.Default()` in `app` makes xgo import `lib/internal/conf` in `app`, which Go does not allow. -/
theorem C73_internal_import : getters (prog internalProg) (own (prog internalProg)) 9 (s "app") {} [⟨s "V", 3, 5⟩] =
    ([(⟨s "V", 3, 5⟩, some (.text (s "*__xgo_var_ref_3_5.Config")))], [(s "__xgo_var_ref_3_5", s "lib/internal/conf")]) := rfl

end Verif.Instrument.VarType
