/-
Model of the servers of xgo (`xgo tool trace`, `xgo tool coverage serve`, `xgo test-explorer`, `--debug`): the search for a port
and the announcement of the address.

Source: support/netutil/netutil.go:14-100 (`ServePort`, `watchSignalWithinTimeout`), 127-160 (`GetHostAndIP`),
cmd/xgo/coverage/serve.go:140-155 and cmd/xgo/test-explorer/main.go:536-545 (`actualPort`).

Simplifications: the clock is left open: the timer of a watcher may be over at any time; what a probe finds and how listening ends
is up to the environment (other programs take and free ports at any time). `watch` is given and its timeout positive, as in all
callers. The number of the port is an integer of Go and does not overflow.
-/
namespace Verif.Support.ServePort

/-- How an attempt at a port ended: something answers there, or listening ended (`EADDRINUSE`, another error, or well). -/
inductive Outcome
  | busy | inUse | other | ok
  deriving DecidableEq

/-- The state of a goroutine `watchSignalWithinTimeout` (netutil.go:85-93): in the select, past it, or ended. -/
inductive Watch
  | waiting | acting | gone
  deriving DecidableEq

structure Watcher where
  st : Watch
  /-- whether its channel `portErr` is closed -/
  closed : Bool
  deriving DecidableEq

inductive Pc
  | probe | serve | done (failed : Bool)
  deriving DecidableEq

/-- `port` is the one variable that the loop increments and that all closures see (netutil.go:30, 51). The newest watcher is the
    first of `ws`. -/
structure St where
  pc : Pc
  port : Int
  ws : List Watcher
  /-- the ports given to `watch` -/
  said : List Int
  /-- the attempts that are over -/
  log : List (Int × Outcome)

def start (port : Int) : St where
  pc := .probe
  port := port
  ws := []
  said := []
  log := []

inductive Label
  /-- `IsTCPAddrServing` (netutil.go:33) -/
  | probe (busy : Bool)
  /-- `doWithPort` returns (netutil.go:53) -/
  | ret (o : Outcome)
  /-- the timer of a watcher, counted from the newest, wins its select -/
  | fire (i : Nat)
  /-- the closed channel wins -/
  | cancel (i : Nat)
  /-- the watcher calls `watch(port)` -/
  | act (i : Nat)
  deriving DecidableEq

/-- `close(portErr)` of this turn of the loop (netutil.go:57). -/
def close : List Watcher → List Watcher
  | [] => []
  | w :: ws => ⟨w.st, true⟩ :: ws

def setSt (x : Watch) (w : Watcher) : Watcher := ⟨x, w.closed⟩

/-- `ServePort` (netutil.go:30-65) and its watchers, step by step. -/
def step (auto : Bool) (s : St) : Label → Option St
  | .probe busy =>
    if s.pc = .probe then
      if busy then
        if auto then some { s with port := s.port + 1, log := s.log ++ [(s.port, .busy)] }
        else some { s with pc := .done true, log := s.log ++ [(s.port, .busy)] }
      else some { s with pc := .serve, ws := ⟨.waiting, false⟩ :: s.ws }
    else none
  | .ret o =>
    if s.pc = .serve then
      match o with
      | .busy => none
      | .ok => some { s with pc := .done false, log := s.log ++ [(s.port, .ok)] }
      | .inUse =>
        if auto then some { s with pc := .probe, port := s.port + 1, ws := close s.ws, log := s.log ++ [(s.port, .inUse)] }
        else some { s with pc := .done true, ws := close s.ws, log := s.log ++ [(s.port, .inUse)] }
      | .other => some { s with pc := .done true, ws := close s.ws, log := s.log ++ [(s.port, .other)] }
    else none
  | .fire i =>
    match s.ws[i]? with
    | some ⟨.waiting, _⟩ => some { s with ws := s.ws.modify i (setSt .acting) }
    | _ => none
  | .cancel i =>
    match s.ws[i]? with
    | some ⟨.waiting, true⟩ => some { s with ws := s.ws.modify i (setSt .gone) }
    | _ => none
  | .act i =>
    match s.ws[i]? with
    | some ⟨.acting, _⟩ => some { s with ws := s.ws.modify i (setSt .gone), said := s.said ++ [s.port] }
    | _ => none

def run (auto : Bool) : St → List Label → Option St
  | s, [] => some s
  | s, l :: ls =>
    match step auto s l with
    | none => none
    | some t => run auto t ls

/-- The port in the links of the page: `actualPort`, a variable set by `watch` (coverage/serve.go:140-150, serve/serve.go:37-41). -/
def pagePort (s : St) : Int := s.said.getLast?.getD 0

abbrev Str := List Char

/-- `net.JoinHostPort`, with the port as text. -/
def joinHostPort (host port : Str) : Str :=
  if host.contains ':' || host.contains '%' then "[".toList ++ host ++ "]:".toList ++ port else host ++ ":".toList ++ port

/-- The address that is listened on (netutil.go:25). -/
def listenAddr (host port : Str) : Str := host ++ ":".toList ++ port

/-- `GetHostAndIP` (netutil.go:127-160): `ips` is what `GetLocalHostByIPType("all")` returns (`none` for its error or nothing),
    `parsed` the number in the option, `v6` whether a text is an address of IPv6. -/
def hostAndPort (ips : Option (List Str)) (v6 : Str → Bool) (bind : Str) (parsed : Option Int) : Str × Int :=
  let port := parsed.getD 7070
  match ips with
  | none => ("localhost".toList, port)
  | some l =>
    let host := if (l ++ ["0.0.0.0".toList, "::".toList]).contains bind then bind else "localhost".toList
    (if v6 host then "[".toList ++ host ++ "]".toList else host, port)

end Verif.Support.ServePort
