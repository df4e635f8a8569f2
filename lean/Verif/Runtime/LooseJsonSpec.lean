/-
What is to be shown of C99: how a program marshals values when there is no xgo, how a value is to be shown in a trace, and which methods
may be called by a tracer.
-/
import Verif.Runtime.LooseJson

namespace Verif.Runtime.LooseJson

/-! ### Go without xgo -/

mutual
/-- `json.Marshal` of Go: its outcome, and what the program has seen meanwhile. Calls and variables do nothing here. -/
def std : Val → Res Json × List Seen
  | .plain j => (.ok j, [])
  | .bad e => (.err e, [])
  | .odd t => (.err (.says ("json: unsupported type: ".toList ++ t)), [])
  | .arr vs => ((stdVals vs).1.map .arr, (stdVals vs).2)
  | .obj fs => ((stdFields fs).1.map .obj, (stdFields fs).2)
  | .method c => stdCode c

def stdVals : Vals → Res (List Json) × List Seen
  | .nil => (.ok [], [])
  | .cons v vs =>
    match (std v).1 with
    | .ok j => ((stdVals vs).1.map (j :: ·), (std v).2 ++ (stdVals vs).2)
    | .err e => (.err e, (std v).2)
    | .panic p => (.panic p, (std v).2)
    | .exit => (.exit, (std v).2)

def stdFields : Fields → Res (List (Str × Json)) × List Seen
  | .nil => (.ok [], [])
  | .cons n v fs =>
    match (std v).1 with
    | .ok j => ((stdFields fs).1.map ((n, j) :: ·), (std v).2 ++ (stdFields fs).2)
    | .err e => (.err e, (std v).2)
    | .panic p => (.panic p, (std v).2)
    | .exit => (.exit, (std v).2)

def stdCode : Code → Res Json × List Seen
  | .ret j => (.ok j, [])
  | .fail e => (.err e, [])
  | .panics p => (.panic p, [])
  | .exits => (.exit, [])
  | .tail v => ((std v).1, (std v).2 ++ [.own false (std v).1])
  | .marshal v a b =>
    let l := (std v).2 ++ [.own false (std v).1]
    match (std v).1 with
    | .ok _ => ((stdCode a).1, l ++ (stdCode a).2)
    | .err _ => ((stdCode b).1, l ++ (stdCode b).2)
    | .panic p => (.panic p, l)
    | .exit => (.exit, l)
  | .call _ k => stdCode k
  | .load _ k => stdCode k
  | .spawn v k => ((stdCode k).1, .other false (std v).1 :: (stdCode k).2)
end

/-- What the program sees of its own doing, not in methods that the tracer calls. -/
def Seen.mine : Seen → Bool
  | .own traced _ => !traced
  | .other traced _ => !traced

def mine (s : St) : List Seen := s.seen.filter Seen.mine

/-! ### How a value is to be shown -/

mutual
/-- Everything as in Go, and what has no JSON form by the name of its type. -/
inductive Shown : Val → Json → Prop
  | plain (j : Json) : Shown (.plain j) j
  | odd (t : Str) : Shown (.odd t) (.obj [(t, .str ['?'])])
  | arr {vs : Vals} {l : List Json} : ShownVals vs l → Shown (.arr vs) (.arr l)
  | obj {fs : Fields} {l : List (Str × Json)} : ShownFields fs l → Shown (.obj fs) (.obj l)
  | ret (j : Json) : Shown (.method (.ret j)) j
  | tail {v : Val} {j : Json} : Shown v j → Shown (.method (.tail v)) j
inductive ShownVals : Vals → List Json → Prop
  | nil : ShownVals .nil []
  | cons {v vs j l} : Shown v j → ShownVals vs l → ShownVals (.cons v vs) (j :: l)
inductive ShownFields : Fields → List (Str × Json) → Prop
  | nil : ShownFields .nil []
  | cons {n v fs j l} : Shown v j → ShownFields fs l → ShownFields (.cons n v fs) ((n, j) :: l)
end

/-! ### Which methods a tracer may call -/

/-- The error can say what it is. -/
def Err.Fine : Err → Prop
  | .says _ => True
  | _ => False

def Pan.Fine : Pan → Prop
  | .text _ => True
  | .error e => e.Fine

mutual
/-- Nothing in it ends the goroutine, and all errors and panics have a message. (Calls in it are not traced while it is marshalled
for a trace.) -/
def Gentle : Val → Prop
  | .plain _ => True
  | .bad e => e.Fine
  | .odd _ => True
  | .arr vs => GentleVals vs
  | .obj fs => GentleFields fs
  | .method c => GentleCode c
def GentleVals : Vals → Prop
  | .nil => True
  | .cons v vs => Gentle v ∧ GentleVals vs
def GentleFields : Fields → Prop
  | .nil => True
  | .cons _ v fs => Gentle v ∧ GentleFields fs
def GentleCode : Code → Prop
  | .ret _ => True
  | .fail e => e.Fine
  | .panics p => p.Fine
  | .exits => False
  | .tail v => Gentle v
  | .marshal v a b => Gentle v ∧ GentleCode a ∧ GentleCode b
  | .call _ k => GentleCode k
  | .load _ k => GentleCode k
  | .spawn _ k => GentleCode k
end

mutual
/-- All that is traced while it is marshalled is gentle. -/
def Calm : Val → Prop
  | .plain _ => True
  | .bad _ => True
  | .odd _ => True
  | .arr vs => CalmVals vs
  | .obj fs => CalmFields fs
  | .method c => CalmCode c
def CalmVals : Vals → Prop
  | .nil => True
  | .cons v vs => Calm v ∧ CalmVals vs
def CalmFields : Fields → Prop
  | .nil => True
  | .cons _ v fs => Calm v ∧ CalmFields fs
def CalmCode : Code → Prop
  | .ret _ => True
  | .fail _ => True
  | .panics _ => True
  | .exits => True
  | .tail v => Calm v
  | .marshal v a b => Calm v ∧ CalmCode a ∧ CalmCode b
  | .call args k => GentleFields args ∧ CalmCode k
  | .load v k => Gentle v ∧ CalmCode k
  | .spawn v k => Calm v ∧ CalmCode k
end

/-- What a value is shown as when it is all there is to show. -/
def Alone (v : Val) (j : Json) : Prop := (marshalNoError v { trapping := true }).1 = .ok j

/-- Each under its name, in order, as it is shown alone. -/
inductive Each : Fields → List (Str × Json) → Prop
  | nil : Each .nil []
  | cons {n v fs j l} : Alone v j → Each fs l → Each (.cons n v fs) ((n, j) :: l)

end Verif.Runtime.LooseJson
