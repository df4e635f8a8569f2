/-
Results and errors of one call of an instrumented function whose interceptors and mock are user supplied
`Interceptor` functions: what the caller gets.

Sources: runtime/internal/trap/build.go:204-379, runtime/internal/trap/trap.go:138-209, 226-252,
449-456, instrument/instrument_func/func_template.go
-/
namespace Verif.Runtime.CallValue

/-- A Go error: `trap.ErrMocked` (trap/interceptor.go:22), or another one. -/
inductive Err where
  | mocked
  | other (n : Nat)
  deriving DecidableEq, Repr

/-- The result variables of the call: plain results, and the last result if its type is `error`
    (`none` = nil). For functions with `lastResultErr = false` the field `err` is unused. -/
structure Results where
  vals : List Nat
  err : Option Err
  deriving DecidableEq, Repr

/-- A computation on the result variables that may panic (with an error value). -/
abbrev Comp (α : Type) := Results → Except Err (Results × α)

/-- User supplied interceptors, with the results object they may write to:
    `PreInterceptor` returns an optional error (its data value is not modelled), `PostInterceptor` and
    `Interceptor` too (trap/interceptor.go:24-28). -/
structure Handler where
  pre : Option (Comp (Option Err))
  post : Option (Comp (Option Err))

/-- An error returned by an interceptor is stored into the last result or panics
    (trap/build.go:255-263, 319-326, 367-374). -/
def putErr (lastResultErr : Bool) (r : Results) (e : Err) : Except Err Results :=
  if lastResultErr then .ok { r with err := some e } else .error e

/-- The handler of `buildMockFromInterceptor` (trap/build.go:211-265): always reports the call as
    mocked. -/
def mockHandler (lastResultErr : Bool) (ic : Comp (Option Err)) : Comp Bool := fun r =>
  match ic r with
  | .error e => .error e
  | .ok (r, none) => .ok (r, true)
  | .ok (r, some e) =>
    match putErr lastResultErr r e with
    | .error e => .error e
    | .ok r => .ok (r, true)

/-- The pre handler of `buildRecorderFromInterceptor` (trap/build.go:278-328); the flag is `stop`. -/
def preHandler (lastResultErr : Bool) (ic : Comp (Option Err)) : Comp Bool := fun r =>
  match ic r with
  | .error e => .error e
  | .ok (r, none) => .ok (r, false)
  | .ok (r, some e) =>
    if e = .mocked then .ok (r, true)
    else
      match putErr lastResultErr r e with
      | .error e => .error e
      | .ok r => .ok (r, false)

/-- The post handler of `buildRecorderFromInterceptor` (trap/build.go:330-375). -/
def postHandler (lastResultErr : Bool) (ic : Comp (Option Err)) : Comp Unit := fun r =>
  match ic r with
  | .error e => .error e
  | .ok (r, none) => .ok (r, ())
  | .ok (r, some e) =>
    match putErr lastResultErr r e with
    | .error e => .error e
    | .ok r => .ok (r, ())

/-- The loop over interceptors (trap/trap.go:178-195): result variables, whether a pre asked to stop, the
    number of post closures collected, and the final value of the loop variable (shared by the
    closures, Go 1.14). -/
def preLoop (lre : Bool) : List Handler → Results → Nat → Option Handler →
    Except Err (Results × Bool × Nat × Option Handler)
  | [], r, n, cur => .ok (r, false, n, cur)
  | h :: hs, r, n, _ =>
    let n' := if h.post.isSome then n + 1 else n
    match h.pre with
    | none => preLoop lre hs r n' (some h)
    | some ic =>
      match preHandler lre ic r with
      | .error e => .error e
      | .ok (r, true) => .ok (r, true, n, some h)
      | .ok (r, false) => preLoop lre hs r n' (some h)

/-- The post closures (trap/trap.go:197-209): `n` of them, all calling the post of the final loop variable; a nil
    post is a nil dereference panic (`other 0`). -/
def postLoop (lre : Bool) (cur : Option Handler) : Nat → Results → Except Err Results
  | 0, r => .ok r
  | n + 1, r =>
    match cur with
    | none => .error (.other 0)
    | some h =>
      match h.post with
      | none => .error (.other 0)
      | some ic =>
        match postHandler lre ic r with
        | .error e => .error e
        | .ok (r, ()) => postLoop lre cur n r

/-- What the caller observes: a panic, or results; and whether the original body was run. -/
structure Observed where
  out : Except Err Results
  ran : Bool

/-- The original body: reads/sets the result variables, may panic. -/
abbrev Body := Comp Unit

/-- One call of an instrumented function: `trap`, the deferred post, and the body
    (func_template.go:4). Result variables start out as `r`. A panic in `trap` happens before the
    post is deferred; a panic of the post replaces that of the body. Tracing does not affect
    results. Only general interceptors and the mock (with interceptor) are covered; recorders of
    specific functions go through the same loop (trap/trap.go:157-175). -/
def call (lre : Bool) (hs : List Handler) (mock : Option (Comp (Option Err))) (body : Body) (r : Results) :
    Observed :=
  match preLoop lre hs r 0 none with
  | .error e => ⟨.error e, false⟩
  | .ok (r, true, n, cur) => ⟨postLoop lre cur n r, false⟩
  | .ok (r, false, n, cur) =>
    let m : Except Err (Results × Bool) :=
      match mock with
      | none => .ok (r, false)
      | some ic => mockHandler lre ic r
    match m with
    | .error e => ⟨.error e, false⟩
    | .ok (r, true) => ⟨postLoop lre cur n r, false⟩
    | .ok (r, false) =>
      match body r with
      | .ok (r, ()) => ⟨postLoop lre cur n r, true⟩
      | .error e =>
        match postLoop lre cur n r with
        | .error e' => ⟨.error e', true⟩
        | .ok _ => ⟨.error e, true⟩

end Verif.Runtime.CallValue
