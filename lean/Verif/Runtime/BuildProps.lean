/-
C20-C23: registration checks and argument/result plumbing of user supplied hooks.
-/
import Verif.Runtime.Build

namespace Verif.Runtime.Build

/-! ### Type equality -/

mutual
theorem Ty.same_iff : ∀ a b : Ty, Ty.same a b = true ↔ a = b
  | .base a, .base b => by simp [Ty.same]
  | .ptr a, .ptr b => by simp [Ty.same, Ty.same_iff a b]
  | .func i o v, .func i' o' v' => by
      simp [Ty.same, Ty.sameList_iff i i', Ty.sameList_iff o o', and_assoc]
  | .base _, .ptr _ => by simp [Ty.same]
  | .base _, .func .. => by simp [Ty.same]
  | .ptr _, .base _ => by simp [Ty.same]
  | .ptr _, .func .. => by simp [Ty.same]
  | .func .., .base _ => by simp [Ty.same]
  | .func .., .ptr _ => by simp [Ty.same]

theorem Ty.sameList_iff : ∀ a b : List Ty, Ty.sameList a b = true ↔ a = b
  | [], [] => by simp [Ty.sameList]
  | a :: as, b :: bs => by simp [Ty.sameList, Ty.same_iff a b, Ty.sameList_iff as bs]
  | [], _ :: _ => by simp [Ty.sameList]
  | _ :: _, [] => by simp [Ty.sameList]
end

instance : DecidableEq Ty := fun a b => decidable_of_iff _ (Ty.same_iff a b)

def Outcome.accepted {α : Type} : Outcome α → Prop
  | .ok _ => True
  | .panic _ => False

/-! ### C20 -/

/-- A hook type acceptable for a variable of type `T`: one parameter of type `T`, `*T` or `**T`. -/
def AcceptableHook (varTy hook : Ty) : Prop :=
  ∃ outs v, hook = .func [varTy] outs v ∨ hook = .func [.ptr varTy] outs v ∨
    hook = .func [.ptr (.ptr varTy)] outs v

theorem ptr_ne : ∀ t : Ty, t ≠ .ptr t := by
  intro t h
  have : sizeOf t = sizeOf (Ty.ptr t) := by rw [← h]
  simp at this

theorem ptrptr_ne : ∀ t : Ty, t ≠ .ptr (.ptr t) := by
  intro t h
  have : sizeOf t = sizeOf (Ty.ptr (.ptr t)) := by rw [← h]
  simp at this
  omega

theorem resolveArgTypes_one (outs : List Ty) (v : Bool) (t a : Ty) :
    resolveArgTypes (.func [t] outs v) [a] =
      (if t = a then some [.value] else if t = .ptr a then some [.ptr] else none) := by
  unfold resolveArgTypes
  simp only [Ty.ins, List.length_singleton, ne_eq, not_true, ↓reduceIte]
  unfold resolveLoop
  by_cases h : t = a
  · have : Ty.same t a = true := (Ty.same_iff _ _).2 h
    rw [if_pos this, if_pos h]; rfl
  · have hs : ¬ Ty.same t a = true := fun hh => h ((Ty.same_iff _ _).1 hh)
    rw [if_neg hs, if_neg h]
    cases t with
    | base n => simp
    | func i o v => simp
    | ptr e =>
      by_cases he : e = a
      · subst he
        simp [(Ty.same_iff e e).2 rfl, resolveLoop]
      · have hs' : ¬ Ty.same e a = true := fun hh => he ((Ty.same_iff _ _).1 hh)
        simp [hs', he]

theorem checkVar_accepted (varTy hook : Ty) :
    (checkVarRecorderType varTy hook).accepted ↔ AcceptableHook varTy hook := by
  cases hook with
  | base n => simp [checkVarRecorderType, Ty.isFunc, Outcome.accepted, AcceptableHook]
  | ptr t => simp [checkVarRecorderType, Ty.isFunc, Outcome.accepted, AcceptableHook]
  | func ins outs v =>
    by_cases hl : ins.length = 1
    · obtain ⟨t, rfl⟩ : ∃ t, ins = [t] := by
        match ins, hl with
        | [t], _ => exact ⟨t, rfl⟩
      unfold checkVarRecorderType
      simp only [Ty.isFunc, resolveArgTypes_one, AcceptableHook]
      by_cases h1 : t = varTy
      · subst h1
        simp only [↓reduceIte, Bool.true_eq_false, Outcome.accepted, true_iff]
        exact ⟨outs, v, Or.inl rfl⟩
      · by_cases h2 : t = .ptr varTy
        · subst h2
          simp only [h1, ↓reduceIte, Bool.true_eq_false, Outcome.accepted, true_iff]
          exact ⟨outs, v, Or.inr (Or.inl rfl)⟩
        · by_cases h3 : t = .ptr (.ptr varTy)
          · subst h3; simp [h1, h2, Outcome.accepted]
          · simp [h1, h2, h3, Outcome.accepted]
    · have hn : ∀ a, resolveArgTypes (.func ins outs v) [a] = none := by
        intro a; simp [resolveArgTypes, Ty.ins, hl]
      unfold checkVarRecorderType
      simp only [Ty.isFunc, hn, AcceptableHook, Outcome.accepted]
      simp only [Bool.true_eq_false, ↓reduceIte, false_iff]
      rintro ⟨outs', v', h | h | h⟩ <;> (simp only [Ty.func.injEq] at h; rw [h.1] at hl; simp at hl)

/-- **C20** is false of the code: recording a variable with both a pre and a post hook panics for every
    variable type and every pair of hooks. -/
theorem C20_counterexample (varTy pre post : Ty) :
    ¬ (pushVarRecorder varTy (some pre) (some post)).accepted := by
  unfold pushVarRecorder
  simp only [Option.isNone_some, Bool.and_false, Bool.false_eq_true, ↓reduceIte, Option.isSome_some,
    Bool.true_and]
  by_cases h : Ty.same pre post = true
  · have := (Ty.same_iff _ _).1 h
    subst this
    simp only [h, Bool.not_true, Bool.false_eq_true, ↓reduceIte]
    cases hc : checkVarRecorderType varTy pre with
    | ok r => simp [Outcome.accepted]
    | panic e => simp [Outcome.accepted]
  · simp [h, Outcome.accepted]

/-- The hooks rejected by `C20_counterexample` include perfectly acceptable ones. -/
example : AcceptableHook (.base 1) (.func [.base 1] [] false) := ⟨[], false, Or.inl rfl⟩

/-- **C20**, what holds: with one hook only, registration succeeds exactly for acceptable hook types. -/
theorem C20_single_hook_partial (varTy hook : Ty) :
    ((pushVarRecorder varTy (some hook) none).accepted ↔ AcceptableHook varTy hook) ∧
    ((pushVarRecorder varTy none (some hook)).accepted ↔ AcceptableHook varTy hook) ∧
    ¬ (pushVarRecorder varTy none none).accepted := by
  refine ⟨?_, ?_, ?_⟩
  · rw [← checkVar_accepted]
    unfold pushVarRecorder
    simp only [Option.isNone_some, Bool.false_and, Bool.false_eq_true, ↓reduceIte, Option.isSome_none,
      Bool.and_false]
    cases hc : checkVarRecorderType varTy hook <;> simp [Outcome.accepted]
  · rw [← checkVar_accepted]
    unfold pushVarRecorder
    simp only [Option.isNone_some, Bool.and_false, Bool.false_eq_true, ↓reduceIte, Option.isSome_none,
      Bool.false_and]
    cases hc : checkVarRecorderType varTy hook <;> simp [Outcome.accepted]
  · simp [pushVarRecorder, Outcome.accepted]

/-- Pre-only hooks are called with a value of their parameter type (so the reflective call succeeds),
    whichever of the three acceptable types they have. -/
theorem C20_pre_argument_type_partial (varTy hook : Ty) (r : VarRecorder)
    (h : pushVarRecorder varTy (some hook) none = .ok r) :
    ∃ p, r.pre = some [p] ∧ hook.ins = [passedType varTy r.isPtr p] := by
  have hacc : AcceptableHook varTy hook := by
    rw [← (C20_single_hook_partial varTy hook).1, h]; trivial
  have h12 : Ty.ptr (.ptr varTy) ≠ .ptr varTy := by
    intro h; injection h with h; exact ptr_ne varTy h.symm
  have h13 : Ty.ptr (.ptr varTy) ≠ varTy := fun h => ptrptr_ne varTy h.symm
  have h11 : Ty.ptr varTy ≠ varTy := fun h => ptr_ne varTy h.symm
  obtain ⟨outs, v, rfl | rfl | rfl⟩ := hacc <;>
    simp [pushVarRecorder, checkVarRecorderType, Ty.isFunc, resolveArgTypes_one, h12, h13, h11] at h <;>
    subst h <;> exact ⟨_, rfl, rfl⟩

/-- **C20**, second defect: a post-only hook taking `**T` (to observe `&v`) is accepted but registered
    for reads, where it is then called with a `*T`. -/
theorem C20_post_pointer_counterexample (varTy : Ty) (outs : List Ty) (v : Bool) :
    ∃ r p, pushVarRecorder varTy none (some (.func [.ptr (.ptr varTy)] outs v)) = .ok r ∧
      r.isPtr = false ∧ r.post = some [p] ∧ passedType varTy r.isPtr p ≠ .ptr (.ptr varTy) := by
  have h12 : Ty.ptr (.ptr varTy) ≠ .ptr varTy := by
    intro h; injection h with h; exact ptr_ne varTy h.symm
  have h13 : Ty.ptr (.ptr varTy) ≠ varTy := fun h => ptrptr_ne varTy h.symm
  refine ⟨⟨false, none, some [.ptr]⟩, .ptr, ?_, rfl, rfl, ?_⟩
  · simp [pushVarRecorder, checkVarRecorderType, Ty.isFunc, resolveArgTypes_one, h12, h13]
  · exact fun h => h12 h.symm

/-! ### C22 -/

theorem matchInLoop_skip (a b : List Ty) : ∀ (n i : Nat), i + n = a.length → n > 0 → a.length = b.length + 1 →
    matchInLoop a b 1 i n ≠ .ok true := by
  intro n
  induction n with
  | zero => intro i _ h; omega
  | succ n ih =>
    intro i hi _ hl
    unfold matchInLoop
    cases n with
    | zero =>
      have : a[i + 1]? = none := by rw [List.getElem?_eq_none_iff]; omega
      rw [this]; simp
    | succ n =>
      have h1 : i + 1 < a.length := by omega
      have h2 : i < b.length := by omega
      rw [List.getElem?_eq_getElem h1, List.getElem?_eq_getElem h2]
      simp only
      split
      · exact ih (i + 1) (by omega) (by omega) hl
      · simp

/-- **C22** is false of the code: `PatchMethodByName` accepts no replacer at all, not even one of exactly
    the right type, for any method. -/
theorem C22_counterexample (method replacer : Ty) : ¬ (patchMethodByNameCheck method replacer).accepted := by
  unfold patchMethodByNameCheck
  split
  · simp [Outcome.accepted]
  · unfold checkFuncTypeMatch
    simp only [↓reduceIte]
    by_cases hl : (method.ins.length : Int) - ((1 : Nat) : Int) = replacer.ins.length
    · rw [if_neg (by simpa using hl)]
      have hm := matchInLoop_skip method.ins replacer.ins method.ins.length 0 (by omega)
        (by omega) (by omega)
      cases hml : matchInLoop method.ins replacer.ins 1 0 method.ins.length with
      | panic e => simp [Outcome.accepted]
      | ok b =>
        cases b with
        | true => exact absurd hml hm
        | false => simp [Outcome.accepted]
    · rw [if_pos (by simpa using hl)]
      simp [Outcome.accepted]

/-- It does not merely reject the right type: it crashes with an index out of range. -/
theorem C22_right_type_crashes (recv : Ty) (ins outs : List Ty) (v : Bool) :
    ∃ msg, patchMethodByNameCheck (.func (recv :: ins) outs v) (.func ins outs v) = .panic msg ∧
      msg = "reflect: Func index out of bounds" := by
  have key : ∀ (n i : Nat), i + n = ins.length + 1 → n > 0 →
      matchInLoop (recv :: ins) ins 1 i n = .panic "reflect: Func index out of bounds" := by
    intro n
    induction n with
    | zero => intro i _ h; omega
    | succ n ih =>
      intro i hi _
      unfold matchInLoop
      cases n with
      | zero =>
        have : (recv :: ins)[i + 1]? = none := by rw [List.getElem?_eq_none_iff]; simp; omega
        rw [this]
      | succ n =>
        have h2 : i < ins.length := by omega
        rw [List.getElem?_cons_succ, List.getElem?_eq_getElem h2]
        simp only
        rw [if_pos ((Ty.same_iff _ _).2 rfl)]
        exact ih (i + 1) (by omega) (by omega)
  refine ⟨_, ?_, rfl⟩
  unfold patchMethodByNameCheck checkFuncTypeMatch
  simp only [Ty.isFunc, Bool.true_eq_false, ↓reduceIte, Ty.ins, List.length_cons]
  rw [if_neg (by simp), key (ins.length + 1) 0 (by omega) (by omega)]

theorem matchInLoop_noskip (a b : List Ty) (hl : a.length = b.length) : ∀ (n i : Nat), i + n = a.length →
    matchInLoop a b 0 i n = .ok (decide (a.drop i = b.drop i)) := by
  intro n
  induction n with
  | zero =>
    intro i hi
    rw [List.drop_eq_nil_of_le (by omega), List.drop_eq_nil_of_le (by omega)]
    simp [matchInLoop]
  | succ n ih =>
    intro i hi
    have h1 : i < a.length := by omega
    have h2 : i < b.length := by omega
    unfold matchInLoop
    rw [Nat.add_zero, List.getElem?_eq_getElem h1, List.getElem?_eq_getElem h2,
      List.drop_eq_getElem_cons h1, List.drop_eq_getElem_cons h2]
    simp only
    by_cases h : a[i] = b[i]
    · rw [if_pos ((Ty.same_iff _ _).2 h), ih (i + 1) (by omega)]
      congr 1
      simp only [h, List.cons.injEq, true_and]
    · rw [if_neg (fun hh => h ((Ty.same_iff _ _).1 hh))]
      congr 1
      simp only [h, List.cons.injEq, false_and, decide_false]

theorem matchOutLoop_iff : ∀ (a b : List Ty), a.length = b.length → (matchOutLoop a b = true ↔ a = b)
  | [], [], _ => by simp [matchOutLoop]
  | a :: as, b :: bs, h => by
    simp [matchOutLoop, Ty.same_iff, matchOutLoop_iff as bs (by simpa using h)]
  | [], _ :: _, h => by simp at h
  | _ :: _, [], h => by simp at h

/-- **C22** for functions patched by name (`PatchByName`): a replacer is accepted iff it is a function
    with the same parameter types and the same result types. -/
theorem C22_patch_by_name_partial (fn replacer : Ty) :
    (patchByNameCheck fn replacer).accepted ↔
      replacer.isFunc = true ∧ replacer.ins = fn.ins ∧ replacer.outs = fn.outs := by
  unfold patchByNameCheck
  split
  · rename_i h; simp [Outcome.accepted, h]
  · rename_i h
    have hf : replacer.isFunc = true := by simpa using h
    simp only [hf, true_and]
    unfold checkFuncTypeMatch
    simp only [Bool.false_eq_true, ↓reduceIte]
    by_cases hl : fn.ins.length = replacer.ins.length
    · rw [if_neg (by simp [hl]), matchInLoop_noskip _ _ hl _ 0 (by omega)]
      simp only [List.drop_zero]
      by_cases hi : fn.ins = replacer.ins
      · simp only [hi, decide_true, true_and]
        by_cases ho : fn.outs.length = replacer.outs.length
        · rw [if_neg (by simp [ho])]
          by_cases hoo : fn.outs = replacer.outs
          · rw [(matchOutLoop_iff _ _ ho).2 hoo]
            simp [Outcome.accepted, hoo]
          · have : matchOutLoop fn.outs replacer.outs = false := by
              rw [← Bool.not_eq_true, matchOutLoop_iff _ _ ho]; exact hoo
            simp only [this, Outcome.accepted, false_iff]
            exact fun h => hoo h.symm
        · rw [if_pos (by simpa using ho)]
          simp only [Outcome.accepted, false_iff]
          exact fun h => ho (by rw [h])
      · simp only [hi, decide_false, Outcome.accepted, false_iff]
        exact fun h => hi h.1.symm
    · rw [if_pos (by simp; omega)]
      simp only [Outcome.accepted, false_iff]
      exact fun h => hl (by rw [h.1])

example : (patchByNameCheck (.func [.base 1, .ptr (.base 2)] [.base 3] false)
    (.func [.base 1, .ptr (.base 2)] [.base 3] false)).accepted := by
  rw [C22_patch_by_name_partial]; exact ⟨rfl, rfl, rfl⟩
example : ¬ (patchByNameCheck (.func [.base 1] [.base 3] false) (.func [.base 1] [.base 4] false)).accepted := by
  rw [C22_patch_by_name_partial]; simp [Ty.outs]

/-! ### C21 -/

theorem takeArgs_eq (m : Mem) (args : List Nat) : ∀ (n i : Nat), i + n ≤ args.length →
    takeArgs m args i n = some (((args.drop i).take n).map m) := by
  intro n
  induction n with
  | zero => intro i _; simp [takeArgs]
  | succ n ih =>
    intro i hi
    have h : i < args.length := by omega
    unfold takeArgs
    rw [List.getElem?_eq_getElem h, ih (i + 1) (by omega), List.drop_eq_getElem_cons h]
    rfl

theorem setResults_eq (results : List Nat) (hnd : results.Nodup) : ∀ (vs : List Nat) (m : Mem) (i : Nat),
    i + vs.length = results.length →
    ∃ m', setResults m results vs i = some m' ∧
      (results.drop i).map m' = vs ∧ ∀ b, b ∉ results.drop i → m' b = m b := by
  intro vs
  induction vs with
  | nil =>
    intro m i hi
    exact ⟨m, rfl, by rw [List.drop_eq_nil_of_le (by simp at hi; omega)]; rfl, fun _ _ => rfl⟩
  | cons v vs ih =>
    intro m i hi
    simp only [List.length_cons] at hi
    have h : i < results.length := by omega
    unfold setResults
    rw [List.getElem?_eq_getElem h]
    obtain ⟨m', h1, h2, h3⟩ := ih (m.set results[i] v) (i + 1) (by omega)
    refine ⟨m', h1, ?_, ?_⟩
    · rw [List.drop_eq_getElem_cons h, List.map_cons, h2]
      congr 1
      have hnot : results[i] ∉ results.drop (i + 1) := by
        have hd : (results.drop i).Nodup := hnd.sublist (List.drop_sublist _ _)
        rw [List.drop_eq_getElem_cons h, List.nodup_cons] at hd
        exact hd.1
      rw [h3 _ hnot]
      simp [Mem.set]
    · intro b hb
      rw [List.drop_eq_getElem_cons h, List.mem_cons, not_or] at hb
      rw [h3 b hb.2]
      simp [Mem.set, hb.1]

/-- How the replacer relates to the function it was installed for. -/
inductive Form where
  /-- a plain function -/
  | func
  /-- a method expression `(*T).M`: the receiver is the first argument -/
  | methodExpr (recv : Nat)
  /-- a bound method `x.M`: no receiver argument -/
  | bound (want recv : Nat)

def Form.recvPtr : Form → Option Nat
  | .bound w _ => some w
  | _ => none

def Form.actRecv : Form → Option Nat
  | .func => none
  | .methodExpr r => some r
  | .bound _ r => some r

/-- The arguments the user's replacer must see, from the values passed in the call. -/
def Form.callArgs (f : Form) (m : Mem) (args : List Nat) : List Nat :=
  match f with
  | .func => args.map m
  | .methodExpr r => m r :: args.map m
  | .bound _ _ => args.map m

/-- **C21** A call of a patched function runs the replacer exactly on the values passed in the call (the
    receiver first for a method expression, and without receiver for a bound method); when the replacer returns, each
    of its results becomes the corresponding result of the call and no other memory is touched; when it
    panics, so does the call. The replacer has as many parameters as the form of the function requires and as
    many results as the function (guaranteed by the type check at registration). -/
theorem C21_replacer_plumbing (f : Form) (r : Replacer) (m : Mem) (args results : List Nat)
    (hnd : results.Nodup) (hin : r.nIn = (f.callArgs m args).length)
    (hout : ∀ m' vs, r.run m (f.callArgs m args) = some (m', vs) → vs.length = results.length) :
    (r.run m (f.callArgs m args) = none → mockHandler f.recvPtr r m f.actRecv args results = none) ∧
    (∀ m' vs, r.run m (f.callArgs m args) = some (m', vs) →
      ∃ m'', mockHandler f.recvPtr r m f.actRecv args results = some m'' ∧
        results.map m'' = vs ∧ ∀ b, b ∉ results → m'' b = m' b) := by
  have key : mockHandler f.recvPtr r m f.actRecv args results =
      (match r.run m (f.callArgs m args) with
       | none => none
       | some (m', res) => setResults m' results res 0) := by
    unfold mockHandler
    cases f with
    | func =>
      simp only [Form.callArgs, List.length_map] at hin
      simp only [Form.recvPtr, Form.actRecv, Form.callArgs, Option.isSome_none, Bool.false_and,
        Bool.false_eq_true, ↓reduceIte, List.length_nil, List.nil_append, Nat.sub_zero]
      rw [takeArgs_eq m args _ 0 (by omega), hin, List.drop_zero, List.take_length]
      rfl
    | methodExpr a =>
      simp only [Form.callArgs, List.length_cons, List.length_map] at hin
      have hp : r.nIn > 0 := by omega
      simp only [Form.recvPtr, Form.actRecv, Form.callArgs, Option.isSome_none, Bool.false_and,
        Bool.false_eq_true, ↓reduceIte, hp, List.length_cons, List.length_nil]
      rw [takeArgs_eq m args _ 0 (by omega), show r.nIn - (0 + 1) = args.length by omega,
        List.drop_zero, List.take_length]
      rfl
    | bound w a =>
      simp only [Form.callArgs, List.length_map] at hin
      simp only [Form.recvPtr, Form.actRecv, Form.callArgs, Option.isSome_some, Option.isNone_some,
        Bool.and_false, Bool.false_eq_true, ↓reduceIte, List.length_nil, List.nil_append, Nat.sub_zero]
      rw [takeArgs_eq m args _ 0 (by omega), hin, List.drop_zero, List.take_length]
      rfl
  rw [key]
  constructor
  · intro h; rw [h]
  · intro m' vs h
    rw [h]
    obtain ⟨m'', h1, h2, h3⟩ := setResults_eq results hnd vs m' 0 (by simpa using hout m' vs h)
    exact ⟨m'', h1, by simpa using h2, by simpa using h3⟩

/-- `swap(a, b) (b, a)` patched through a method expression with receiver 7. -/
def exReplacer : Replacer := ⟨3, fun m vs => match vs with | [r, a, b] => some (m, [b + r, a]) | _ => none⟩

example : ((mockHandler none exReplacer (fun a => a * 10) (some 7) [1, 2] [5, 6]).map
    fun m => (m 5, m 6, m 1)) = some (90, 10, 10) := by decide
example : (exReplacer.nIn = ((Form.methodExpr 7).callArgs (fun a => a * 10) [1, 2]).length) := by decide

/-! ### C23 -/

/-- The fields an interceptor sees: receiver (unless the registration is bound to an instance), then each
    argument under its name. -/
theorem C23_interceptor_fields (recvPtr actRecv : Option Nat) (recvName : String) (argNames : List String)
    (args : List Nat) (hl : argNames.length = args.length) :
    ∃ o, argFields recvPtr actRecv recvName argNames args = some o ∧
      o.map (·.2) = (if recvPtr.isNone then actRecv.toList else []) ++ args ∧
      o.map (·.1) = (if recvPtr.isNone && actRecv.isSome then [recvName] else []) ++ argNames := by
  unfold argFields
  rw [if_pos (by omega)]
  refine ⟨_, rfl, ?_, ?_⟩
  · cases recvPtr <;> cases actRecv <;>
      simp [← List.unzip_snd, List.unzip_zip, hl]
  · cases recvPtr <;> cases actRecv <;>
      simp [← List.unzip_fst, List.unzip_zip, hl]

/-- `GetField` finds every argument whose name is unique and different from the receiver's. -/
theorem C23_get_field (o : List (String × Nat)) (n : String) (v : Nat)
    (hnd : (o.map (·.1)).Nodup) (h : (n, v) ∈ o) : getField o n = some v := by
  induction o with
  | nil => cases h
  | cons p o ih =>
    obtain ⟨n', v'⟩ := p
    simp only [List.map_cons, List.nodup_cons] at hnd
    unfold getField
    simp only [List.mem_cons, Prod.mk.injEq] at h
    rcases h with ⟨rfl, rfl⟩ | h
    · simp
    · by_cases he : n' = n
      · subst he
        exact absurd (List.mem_map.2 ⟨(n', v), h, rfl⟩) hnd.1
      · rw [if_neg he]; exact ih hnd.2 h

example : argFields none (some 3) "r" ["a", "b"] [1, 2] = some [("r", 3), ("a", 1), ("b", 2)] := by decide

end Verif.Runtime.Build
