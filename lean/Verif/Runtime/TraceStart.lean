/-
Model of how `trap` starts and ends a trace when `trace.Trace` is called (runtime/internal/trap/trap.go:72-133, 260-308, 421-447),
on top of the registries of `Verif.Runtime.Registry`: after init, at trapping depth 1, with no inspecting handler. The filter of an earlier
trace is assumed not to reject `trace.Trace` itself.
-/
import Verif.Runtime.Registry

namespace Verif.Runtime

/-- The registries and `StackData.hasStartedTracing` of every StackData. -/
structure TWorld where
  w : World
  started : Nat → Bool

/-- `trace.Config` (runtime/trace/trace.go:13-23): is `OutputFile` or `OnFinish` given? -/
structure TraceCfg where
  hasOutput : Bool

/-- What the call of `trace.Trace` turned out to be. -/
inductive TraceKind where
  /-- recording starts; `post` will export and detach -/
  | recording
  /-- starting was detected but the config is empty (trap.go:300-305) -/
  | ignored
  /-- a trace is already running: an ordinary traced call -/
  | nested
  deriving DecidableEq, Repr

/-- Entry of `trace.Trace` on goroutine `g` (trap.go:78-132 and 300-305). -/
def TWorld.traceBegin (t : TWorld) (g : Gid) (cfg : TraceCfg) : TWorld × TraceKind :=
  match t.w.attached g with
  | none =>
    let (w, sid) := t.w.getOrAttach g                                       -- 117-128
    let t1 : TWorld := { w := w, started := fun i => if i = sid then true else t.started i }
    if cfg.hasOutput then (t1, .recording)
    else ({ t1 with w := t1.w.detach g }, .ignored)                         -- 301-304
  | some sid =>
    if t.started sid then (t, .nested)                                      -- 82: !isTracing
    else
      let t1 := { t with started := fun i => if i = sid then true else t.started i }   -- 130
      if cfg.hasOutput then (t1, .recording) else (t1, .ignored)

/-- Exit of `trace.Trace`: `post` of a call that started the recording exports the stack and detaches it (trap.go:421-447). -/
def TWorld.traceEnd (t : TWorld) (g : Gid) (k : TraceKind) : TWorld :=
  match k with
  | .recording => { t with w := t.w.detach g }
  | _ => t

/-- A whole call `trace.Trace(cfg, req, fn)`: result world and whether it was recorded. -/
def TWorld.trace (t : TWorld) (g : Gid) (cfg : TraceCfg) (fn : TWorld → TWorld) : TWorld × TraceKind :=
  let (t1, k) := t.traceBegin g cfg
  ((fn t1).traceEnd g k, k)

end Verif.Runtime
