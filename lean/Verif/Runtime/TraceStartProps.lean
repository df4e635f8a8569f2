/- C17 and C18: what trace.Trace does to the goroutine it runs on. -/
import Verif.Runtime.TraceStart

namespace Verif.Runtime

/-- what goroutine `g` would use: the mock in effect and the handlers, for every slot -/
def sameView (w w' : World) (g : Gid) : Prop := ∀ s, w'.lastMock g s = w.lastMock g s ∧ w'.handlers g s = w.handlers g s

/-- the traced function leaves the registrations of `g` alone -/
def leaves (g : Gid) (fn : TWorld → TWorld) : Prop :=
  ∀ t, (∀ s, (fn t).w.localList g s = t.w.localList g s) ∧ (fn t).w.global = t.w.global

theorem view_of_lists {w w' : World} {g} (h : ∀ s, w'.localList g s = w.localList g s) (hg : w'.global = w.global) : sameView w w' g := by
  intro s; simp [World.lastMock, World.handlers, h, hg]

/-- a goroutine after init that has installed mock 7 for function slot `s` -/
def c17world (s : Slot) : World := World.run false World.init [.finishInit, .push 1 s none 7]

/-- C17 is false of the code: a mock installed before `trace.Trace` is no longer in effect after it (trap.go:446 detaches the stack that
    holds the registrations). -/
theorem C17_counterexample (s : Slot) :
    (c17world s).lastMock 1 s = some ⟨some 0, none, 7⟩ ∧
    ((⟨c17world s, fun _ => false⟩ : TWorld).trace 1 ⟨true⟩ id).1.w.lastMock 1 s = none := by
  constructor <;>
  simp [c17world, World.run, World.step, World.push, World.init, World.getOrAttach, World.put, World.get, Holders.set, World.lastMock,
    World.localList, TWorld.trace, TWorld.traceBegin, TWorld.traceEnd, World.detach]

/-- C17, exactly when it holds: a call of `trace.Trace` that does not start a recording on a goroutine that already had registrations
    leaves everything in effect. Missing: the recording call on a goroutine with registrations, which loses them. -/
theorem C17_view_kept_partial (t : TWorld) (g : Gid) (cfg : TraceCfg) (fn : TWorld → TWorld) (hf : leaves g fn)
    (hk : t.w.attached g = none ∨ (t.trace g cfg fn).2 ≠ .recording) : sameView t.w (t.trace g cfg fn).1.w g := by
  cases ha : t.w.attached g with
  | none =>
    cases hc : cfg.hasOutput
    · refine view_of_lists (fun s => ?_) ?_
      · simp only [TWorld.trace, TWorld.traceBegin, ha, hc, TWorld.traceEnd, Bool.false_eq_true, if_false]
        rw [(hf _).1 s]
        simp [World.localList, World.detach, ha]
      · simp only [TWorld.trace, TWorld.traceBegin, ha, hc, TWorld.traceEnd, Bool.false_eq_true, if_false]
        rw [(hf _).2]
        simp [World.detach, World.getOrAttach, ha]
    · refine view_of_lists (fun s => ?_) ?_
      · simp [TWorld.trace, TWorld.traceBegin, ha, hc, TWorld.traceEnd, World.localList, World.detach]
      · simp only [TWorld.trace, TWorld.traceBegin, ha, hc, TWorld.traceEnd, World.detach, if_true]
        rw [(hf _).2]
        simp [World.getOrAttach, ha]
  | some sid =>
    have hk' : (t.trace g cfg fn).2 ≠ .recording := hk.resolve_left (by simp [ha])
    cases hs : t.started sid
    · cases hc : cfg.hasOutput
      · refine view_of_lists (fun s => ?_) ?_
        · simp only [TWorld.trace, TWorld.traceBegin, ha, hs, hc, TWorld.traceEnd, Bool.false_eq_true, if_false]
          rw [(hf _).1 s]
        · simp only [TWorld.trace, TWorld.traceBegin, ha, hs, hc, TWorld.traceEnd, Bool.false_eq_true, if_false]
          rw [(hf _).2]
      · exact absurd (by simp [TWorld.trace, TWorld.traceBegin, ha, hs, hc]) hk'
    · refine view_of_lists (fun s => ?_) ?_
      · simp only [TWorld.trace, TWorld.traceBegin, ha, hs, TWorld.traceEnd, if_true]
        rw [(hf _).1 s]
      · simp only [TWorld.trace, TWorld.traceBegin, ha, hs, TWorld.traceEnd, if_true]
        rw [(hf _).2]

/-- C17, what is lost otherwise: after a recording, only the init-time registrations are in effect, whatever the goroutine had installed
    before or during the trace. -/
theorem C17_recording_drops_all (t : TWorld) (g : Gid) (cfg : TraceCfg) (fn : TWorld → TWorld)
    (hk : (t.trace g cfg fn).2 = .recording) : ∀ s, (t.trace g cfg fn).1.w.localList g s = [] := by
  intro s
  have h : (t.traceBegin g cfg).2 = .recording := hk
  simp [TWorld.trace, h, TWorld.traceEnd, World.localList, World.detach]

/-- hypotheses met: a goroutine with a mock, inside a running trace -/
example (s : Slot) : (⟨c17world s, fun _ => true⟩ : TWorld).w.attached 1 = some 0 ∧
    ((⟨c17world s, fun _ => true⟩ : TWorld).trace 1 ⟨true⟩ id).2 = .nested ∧ leaves 1 id := by
  refine ⟨?_, ?_, fun t => ⟨fun _ => rfl, rfl⟩⟩ <;>
  simp [c17world, World.run, World.step, World.push, World.init, World.getOrAttach, World.put, World.get, TWorld.trace, TWorld.traceBegin]

/-- C18 is false of the code: on a goroutine with a mock, `trace.Trace` with an empty config marks the goroutine as tracing (trap.go:130),
    and a later `trace.Trace` with a config is not recorded. -/
theorem C18_counterexample (s : Slot) :
    ((⟨c17world s, fun _ => false⟩ : TWorld).trace 1 ⟨true⟩ id).2 = .recording ∧
    let t := ((⟨c17world s, fun _ => false⟩ : TWorld).trace 1 ⟨false⟩ id).1
    (t.trace 1 ⟨true⟩ id).2 = .nested := by
  constructor <;>
  simp [c17world, World.run, World.step, World.push, World.init, World.getOrAttach, World.put, World.get,
    TWorld.trace, TWorld.traceBegin, TWorld.traceEnd]

/-- C18, without registrations on the goroutine: after a `trace.Trace` with an empty config (whose function leaves the goroutine alone), a later
    `trace.Trace` records. Missing: goroutines with registrations. -/
theorem C18_no_residue_partial (t : TWorld) (g : Gid) (fn fn' : TWorld → TWorld)
    (ha : t.w.attached g = none) (hf : ∀ t, (fn t).w.attached g = t.w.attached g) :
    (t.trace g ⟨false⟩ fn).2 = .ignored ∧ ((t.trace g ⟨false⟩ fn).1.trace g ⟨true⟩ fn').2 = .recording := by
  have h1 : (t.trace g ⟨false⟩ fn).1.w.attached g = none := by
    simp only [TWorld.trace, TWorld.traceBegin, ha, TWorld.traceEnd, Bool.false_eq_true, if_false]
    rw [hf]
    simp [World.detach]
  refine ⟨by simp [TWorld.trace, TWorld.traceBegin, ha], ?_⟩
  simp [TWorld.trace, TWorld.traceBegin] at h1 ⊢
  simp [h1]

example : (World.run false World.init [.finishInit]).attached 1 = none := rfl

end Verif.Runtime
