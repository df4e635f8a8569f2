import Verif.Cmd.Handoff

/-!
# C96: specification

Stated on the selection of a run and on the list of what happened, not on the maps and the cache.
-/

namespace Verif.Cmd.Handoff.Spec

open Verif.Instrument.FuncTrap (TrapFile trapSum)

/-- The run selected this function or interface type in the file with this name of the package with this path. -/
def Chosen (sel : Selection) (path file : Str) (intf : Bool) (id : Str) : Prop :=
  ∃ p ∈ sel, p.path = path ∧ ∃ f ∈ p.files, f.name = file ∧
    (intf = false ∧ id ∈ f.funcs ∨ intf = true ∧ id ∈ f.interfaces)

/-- A selection lists a package once and a file of it once. -/
def Tidy (sel : Selection) : Prop :=
  (sel.map (·.path)).Nodup ∧ ∀ p ∈ sel, (p.files.map (·.name)).Nodup

/-- No `//line` directive above the `package` clause. -/
def Plain (src : List CFile) : Prop := ∀ f ∈ src, f.pos = f.name

/-- The object has traps in exactly the selected declarations. -/
def AsSelected (sel : Selection) (t : Target) (src : List CFile) (traps : List (Str × Decl)) : Prop :=
  ∀ n d, (n, d) ∈ traps ↔
    (∃ f ∈ src, f.name = n ∧ d ∈ f.decls) ∧ d.takes = true ∧ Chosen sel t.path n d.intf d.id

/-- A run is begun once. -/
def Once (evs : List Event) : Prop :=
  ∀ pre mid post r d sel inh d' sel' inh',
    evs ≠ pre ++ .begin r d sel inh :: mid ++ .begin r d' sel' inh' :: post

/-- In a project a run begins only when the runs before it in that project are over or killed. Runs in different projects
may overlap in any way. -/
def OneAtATime (evs : List Event) : Prop :=
  ∀ pre mid post r r' d sel inh sel' inh',
    evs = pre ++ .begin r d sel inh :: mid ++ .begin r' d sel' inh' :: post → .stop r ∈ mid

/-- No run that selects nothing is started from within the programs that another run has built. -/
def NotNested (evs : List Event) : Prop := ∀ r d sel inh, .begin r d sel inh ∈ evs → inh = none

/-- The sums tell the selections of all runs apart: the md5 sums are not empty, and packages with the same path and the
same sum were selected alike (C51 says how this can fail). -/
def SumsTell (hash : Str → Str) (evs : List Event) : Prop :=
  (∀ x, hash x ≠ []) ∧
  ∀ r d sel inh r' d' sel' inh', .begin r d sel inh ∈ evs → .begin r' d' sel' inh' ∈ evs →
    ∀ p ∈ sel, ∀ q ∈ sel', p.path = q.path →
      trapSum hash p.files p.hasVarTrap = trapSum hash q.files q.hasVarTrap → p = q

/-- Each run selects tidily. -/
def TidyRuns (evs : List Event) : Prop := ∀ r d sel inh, .begin r d sel inh ∈ evs → Tidy sel

end Verif.Cmd.Handoff.Spec
