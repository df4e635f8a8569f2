/-
C36 (flag values), C48 (arguments for go and for the program), C49 (packages on the command line).
-/
import Verif.Cmd.OptionsSpec

namespace Verif.Cmd
open Verif.Support (Str)
open Spec

/-! ### One argument -/

theorem tryParseArg_next (f arg : Str) : tryParseArg f arg = some none ↔ arg = f := by
  unfold tryParseArg
  by_cases hp : f.isPrefixOf arg = true
  · obtain ⟨t, rfl⟩ := List.isPrefixOf_iff_prefix.1 hp
    cases t with
    | nil => simp
    | cons c t => by_cases hc : c = '=' <;> simp [hc]
  · simp only [hp]
    simp
    rintro rfl
    exact hp (List.isPrefixOf_iff_prefix.2 (List.prefix_refl _))

theorem tryParseArg_val (f arg v : Str) : tryParseArg f arg = some (some v) ↔ arg = f ++ '=' :: v := by
  unfold tryParseArg
  by_cases hp : f.isPrefixOf arg = true
  · obtain ⟨t, rfl⟩ := List.isPrefixOf_iff_prefix.1 hp
    cases t with
    | nil => simp
    | cons c t => by_cases hc : c = '=' <;> simp [hc]
  · simp only [hp]
    simp
    rintro rfl
    exact hp (List.isPrefixOf_iff_prefix.2 ⟨_, rfl⟩)

theorem trySingleFlag_eq : ∀ (flags : List Str) (arg : Str), trySingleFlag flags arg =
    match flags with
    | [] => none
    | f :: fs => match tryParseArg f arg with
      | some none => some []
      | some (some v) => some v
      | none => trySingleFlag fs arg
  | [], _ => rfl
  | f :: fs, arg => by
    rw [trySingleFlag]
    unfold tryParseArg
    by_cases h1 : f.isPrefixOf arg = true
    · by_cases h2 : arg.length = f.length
      · simp [h1, h2]
      · by_cases h3 : arg[f.length]? = some '='
        · simp [h1, h2, h3]
        · simp [h1, h2, h3]
    · simp [h1]

/-- Choosing the first of two. -/
def orElse (a b : Recog) : Recog := match a with | .no => b | r => r

theorem firstOf_cons (r : Recog) (l : List Recog) : firstOf (r :: l) = orElse r (firstOf l) := by
  cases r <;> rfl

theorem orElse_assoc (a b c : Recog) : orElse (orElse a b) c = orElse a (orElse b c) := by cases a <;> rfl
theorem orElse_no (a : Recog) : orElse a .no = a := by cases a <;> rfl

theorem firstOf_append (l m : List Recog) : firstOf (l ++ m) = orElse (firstOf l) (firstOf m) := by
  induction l with
  | nil => rfl
  | cons r l ih => rw [List.cons_append, firstOf_cons, firstOf_cons, ih, orElse_assoc]

/-- What an entry of the table makes of an argument. -/
def matchEntry (arg : Str) (e : Entry) : Recog :=
  match e.kind with
  | .bare => if arg = e.flag.toList then .self e.name.toList [] else .no
  | .opt m => match tryParseArg e.flag.toList arg with
    | none => .no
    | some none => match m [] with | some v => .self e.name.toList v | none => .fail
    | some (some raw) => match m raw with | some v => .self e.name.toList v | none => .fail
  | .value => match tryParseArg e.flag.toList arg with
    | none => .no
    | some none => .next e.name.toList
    | some (some v) => .self e.name.toList v

theorem matchEntry_says (arg : Str) (e : Entry) (he : ∀ m, e.kind = .opt m → m [] ≠ none) (r : Recog) :
    Says e.name.toList e.flag.toList e.kind arg r ↔ matchEntry arg e = r ∧ r ≠ .no := by
  obtain ⟨n, f, k⟩ := e
  unfold matchEntry
  simp only at he ⊢
  cases k with
  | bare =>
    simp only
    constructor
    · intro h; cases h; simp
    · rintro ⟨h, hr⟩
      split at h
      · rename_i ha; subst ha; subst h; exact .bare
      · exact absurd h.symm hr
  | opt m =>
    simp only
    constructor
    · intro h
      generalize hk : Kind.opt m = k at h
      cases h with
      | bare => cases hk
      | value => cases hk
      | valueEq => cases hk
      | opt h => cases hk; rw [(tryParseArg_next _ _).2 rfl]; simp [h]
      | optEq h => cases hk; rw [(tryParseArg_val _ _ _).2 rfl]; simp [h]
      | optBad h => cases hk; rw [(tryParseArg_val _ _ _).2 rfl]; simp [h]
    · rintro ⟨h, hr⟩
      cases ht : tryParseArg f.toList arg with
      | none => rw [ht] at h; exact absurd h.symm hr
      | some o =>
        rw [ht] at h
        cases o with
        | none =>
          rw [tryParseArg_next] at ht
          subst ht
          simp only at h
          cases hm : m [] with
          | none => exact absurd hm (he m rfl)
          | some v => rw [hm] at h; subst h; exact .opt hm
        | some raw =>
          rw [tryParseArg_val] at ht
          subst ht
          simp only at h
          cases hm : m raw with
          | none => rw [hm] at h; subst h; exact .optBad hm
          | some v => rw [hm] at h; subst h; exact .optEq hm
  | value =>
    simp only
    constructor
    · intro h
      generalize hk : Kind.value = k at h
      cases h with
      | bare => cases hk
      | opt => cases hk
      | optEq => cases hk
      | optBad => cases hk
      | value => rw [(tryParseArg_next _ _).2 rfl]; simp
      | valueEq => rw [(tryParseArg_val _ _ _).2 rfl]; simp
    · rintro ⟨h, hr⟩
      cases ht : tryParseArg f.toList arg with
      | none => rw [ht] at h; exact absurd h.symm hr
      | some o =>
        rw [ht] at h
        cases o with
        | none =>
          rw [tryParseArg_next] at ht
          subst ht; simp only at h; subst h; exact .value
        | some v =>
          rw [tryParseArg_val] at ht
          subst ht; simp only at h; subst h; exact .valueEq

/-- The flag an argument is written with. -/
theorem says_shape {n f : Str} {k : Kind} {arg : Str} {r : Recog} (h : Says n f k arg r) :
    arg = f ∨ ∃ v, arg = f ++ '=' :: v := by
  cases h <;> first | exact Or.inl rfl | exact Or.inr ⟨_, rfl⟩

theorem shape_unique {f g arg : Str} (hf : '=' ∉ f) (hg : '=' ∉ g)
    (h1 : arg = f ∨ ∃ v, arg = f ++ '=' :: v) (h2 : arg = g ∨ ∃ v, arg = g ++ '=' :: v) : f = g := by
  have key : ∀ (h : Str), '=' ∉ h → (arg = h ∨ ∃ v, arg = h ++ '=' :: v) → arg.takeWhile (· != '=') = h := by
    intro h hh hs
    have : ∀ (a : Str), '=' ∉ a → ∀ t, (a ++ t).takeWhile (· != '=') = a ++ t.takeWhile (· != '=') := by
      intro a ha t
      induction a with
      | nil => rfl
      | cons c a ih =>
        simp only [List.mem_cons, not_or] at ha
        rw [List.cons_append, List.takeWhile_cons_of_pos (by simpa using Ne.symm ha.1), ih ha.2, List.cons_append]
    rcases hs with rfl | ⟨v, rfl⟩
    · have := this arg hh []
      simpa using this
    · rw [this h hh]; simp
  rw [← key f hf h1, ← key g hg h2]

/-! The code consults the same table. -/

theorem exact_eq1 (a arg) : exact [String.toList a] arg = firstOf [matchEntry arg ⟨a, a, .bare⟩] := by
  simp only [exact, matchEntry, firstOf_cons, firstOf, orElse_no, List.mem_singleton, List.headD_cons]

theorem exact_eq2 (a b : String) (arg) : exact [a.toList, b.toList] arg =
    firstOf [matchEntry arg ⟨a, a, .bare⟩, matchEntry arg ⟨a, b, .bare⟩] := by
  simp only [exact, matchEntry, firstOf_cons, firstOf, orElse_no, List.mem_cons, List.not_mem_nil, or_false, List.headD_cons]
  by_cases h1 : arg = a.toList
  · rw [if_pos (Or.inl h1), if_pos h1]; rfl
  · by_cases h2 : arg = b.toList
    · rw [if_pos (Or.inr h2), if_neg h1, if_pos h2]; rfl
    · rw [if_neg (by simp [h1, h2]), if_neg h1, if_neg h2]; rfl

theorem tri (f arg : Str) :
    (f.isPrefixOf arg = false ∧ tryParseArg f arg = none) ∨
    (f.isPrefixOf arg = true ∧ arg.drop f.length = [] ∧ tryParseArg f arg = some none) ∨
    (f.isPrefixOf arg = true ∧ ∃ v, arg.drop f.length = '=' :: v ∧ tryParseArg f arg = some (some v)) ∨
    (f.isPrefixOf arg = true ∧ ∃ c v, c ≠ '=' ∧ arg.drop f.length = c :: v ∧ tryParseArg f arg = none) := by
  cases hp : f.isPrefixOf arg with
  | false => left; exact ⟨rfl, by simp [tryParseArg, hp]⟩
  | true =>
    right
    have hp' := hp
    obtain ⟨t, rfl⟩ := List.isPrefixOf_iff_prefix.1 hp
    cases t with
    | nil => left; exact ⟨rfl, by simp, (tryParseArg_next _ _).2 (by simp)⟩
    | cons c t =>
      right
      by_cases hc : c = '='
      · subst hc; left; exact ⟨rfl, t, by simp, (tryParseArg_val _ _ _).2 rfl⟩
      · right
        refine ⟨rfl, c, t, hc, by simp, ?_⟩
        unfold tryParseArg
        rw [hp']; simp [hc]

theorem single_eq (a : String) (arg) : single a.toList arg = firstOf [matchEntry arg ⟨a, a, .opt some⟩] := by
  simp only [single, matchEntry, firstOf_cons, firstOf, orElse_no]
  rw [trySingleFlag_eq]
  simp only [trySingleFlag]
  generalize tryParseArg a.toList arg = x
  rcases x with _ | _ | v <;> rfl

theorem eqSuffix_eq (a : String) (arg) :
    tryParseEqSuffixValue a.toList arg = firstOf [matchEntry arg ⟨a, a, .opt some⟩] := by
  simp only [tryParseEqSuffixValue, matchEntry, firstOf_cons, firstOf, orElse_no]
  rcases tri a.toList arg with ⟨h1, h2⟩ | ⟨h1, h2, h3⟩ | ⟨h1, v, h2, h3⟩ | ⟨h1, c, v, hc, h2, h3⟩
  · rw [h1, h2]; rfl
  · rw [h1, h2, h3]; rfl
  · rw [h1, h2, h3]; rfl
  · rw [h1, h2, h3]; simp [hc]

theorem required_eq (n a : String) (arg) :
    tryParseRequiredValue n.toList a.toList arg = firstOf [matchEntry arg ⟨n, a, .value⟩] := by
  simp only [tryParseRequiredValue, matchEntry, firstOf_cons, firstOf, orElse_no]
  rcases tri a.toList arg with ⟨h1, h2⟩ | ⟨h1, h2, h3⟩ | ⟨h1, v, h2, h3⟩ | ⟨h1, c, v, hc, h2, h3⟩
  · rw [h1, h2]; rfl
  · rw [h1, h2, h3]; rfl
  · rw [h1, h2, h3]; rfl
  · rw [h1, h2, h3]; simp [hc]

theorem trueFalse_match (n val : Str) :
    (if val = "true".toList ∨ val = [] then Recog.self n "true".toList
     else if val = "false".toList then .self n "false".toList else .fail) =
    match trueFalse val with | some v => .self n v | none => .fail := by
  unfold trueFalse
  by_cases h1 : val = "true".toList ∨ val = []
  · have h2 : val ∈ ["".toList, "true".toList] := by
      rcases h1 with h | h
      · rw [h]; exact List.mem_cons_of_mem _ (List.mem_cons_self ..)
      · rw [h]; exact List.mem_cons_self ..
    rw [if_pos h1, if_pos h2]
  · have h2 : val ∉ ["".toList, "true".toList] := by
      intro h
      rcases List.mem_cons.1 h with h | h
      · exact h1 (Or.inr h)
      · exact h1 (Or.inl (List.mem_singleton.1 h))
    rw [if_neg h1, if_neg h2]
    by_cases h3 : val = "false".toList
    · rw [if_pos h3, if_pos h3]
    · rw [if_neg h3, if_neg h3]

theorem onOff_match (n val : Str) :
    (if val = [] ∨ val = "on".toList ∨ val = "true".toList then Recog.self n "on".toList
     else if val = "off".toList ∨ val = "false".toList then .self n "off".toList else .fail) =
    match onOff val with | some v => .self n v | none => .fail := by
  unfold onOff
  have e1 : (val ∈ ["".toList, "on".toList, "true".toList]) ↔ (val = [] ∨ val = "on".toList ∨ val = "true".toList) := by
    rw [List.mem_cons, List.mem_cons, List.mem_singleton]; exact Iff.rfl
  have e2 : (val ∈ ["off".toList, "false".toList]) ↔ (val = "off".toList ∨ val = "false".toList) := by
    rw [List.mem_cons, List.mem_singleton]
  by_cases h1 : val = [] ∨ val = "on".toList ∨ val = "true".toList
  · rw [if_pos h1, if_pos (e1.2 h1)]
  · rw [if_neg h1, if_neg (mt e1.1 h1)]
    by_cases h3 : val = "off".toList ∨ val = "false".toList
    · rw [if_pos h3, if_pos (e2.2 h3)]
    · rw [if_neg h3, if_neg (mt e2.1 h3)]

theorem useFilePatches_eq (arg) :
    useFilePatches arg = firstOf [matchEntry arg ⟨"--use-file-patches", "--use-file-patches", .opt trueFalse⟩] := by
  simp only [useFilePatches, matchEntry, firstOf_cons, firstOf, orElse_no]
  generalize hf : "--use-file-patches".toList = f
  by_cases h1 : arg = f
  · rw [if_pos h1, (tryParseArg_next _ _).2 h1]; simp [trueFalse]
  · rw [if_neg h1]
    by_cases h2 : (f ++ ['=']).isPrefixOf arg = true
    · rw [if_pos h2]
      obtain ⟨t, rfl⟩ := List.isPrefixOf_iff_prefix.1 h2
      rw [List.drop_left, (tryParseArg_val _ _ t).2 (by simp)]
      exact trueFalse_match _ _
    · rw [if_neg h2]
      rcases ht : tryParseArg f arg with _ | _ | v
      · rfl
      · exact absurd ((tryParseArg_next _ _).1 ht) h1
      · rw [tryParseArg_val] at ht
        subst ht
        exact absurd (List.isPrefixOf_iff_prefix.2 ⟨v, by simp⟩) h2

theorem parseStackTrace_eq (arg) :
    parseStackTraceFlag arg = firstOf [matchEntry arg ⟨"--strace", "--strace", .opt onOff⟩,
      matchEntry arg ⟨"--strace", "--stack-trace", .opt onOff⟩] := by
  have body : ∀ (f : Str), f.isPrefixOf arg = true →
      (if arg.length = f.length then Recog.self "--strace".toList "on".toList
       else if arg[f.length]? ≠ some '=' then .no
       else
        let val := arg.drop (f.length + 1)
        if val = [] ∨ val = "on".toList ∨ val = "true".toList then .self "--strace".toList "on".toList
        else if val = "off".toList ∨ val = "false".toList then .self "--strace".toList "off".toList
        else .fail) =
      match tryParseArg f arg with
      | none => .no
      | some none => match onOff [] with | some v => .self "--strace".toList v | none => .fail
      | some (some raw) => match onOff raw with | some v => .self "--strace".toList v | none => .fail := by
    intro f hp
    unfold tryParseArg
    rw [hp]
    by_cases h1 : arg.length = f.length
    · simp [h1, onOff]
    · by_cases h2 : arg[f.length]? = some '='
      · simp only [h1, h2]
        simp only [if_false, ne_eq, not_true_eq_false, if_true, Bool.not_true, Bool.false_eq_true]
        exact onOff_match _ _
      · simp [h1, h2]
  simp only [parseStackTraceFlag, matchEntry, firstOf_cons, firstOf, orElse_no]
  by_cases h1 : "--strace".toList.isPrefixOf arg = true
  · rw [if_pos h1, if_neg (by decide), body _ h1]
    have h2 : tryParseArg "--stack-trace".toList arg = none := by
      have h3 : "--stack-trace".toList.isPrefixOf arg = false := by
        obtain ⟨t, rfl⟩ := List.isPrefixOf_iff_prefix.1 h1
        rfl
      unfold tryParseArg; rw [h3]; rfl
    rw [h2, orElse_no]
  · rw [if_neg h1]
    have h0 : tryParseArg "--strace".toList arg = none := by
      unfold tryParseArg; simp only [h1]; rfl
    rw [h0]
    simp only [orElse]
    by_cases h2 : "--stack-trace".toList.isPrefixOf arg = true
    · rw [if_pos h2, if_neg (by decide), body _ h2]
    · rw [if_neg h2]
      unfold tryParseArg; simp only [h2]; rfl

/-- The entries of a row of `flagTable`. -/
def entries (names : List String) (single : Bool) : List Entry :=
  names.map fun f => ⟨names.headD "", f, if single then .opt (if names.headD "" = "--unified" then triState else some) else .value⟩

theorem tryParseFlags_eq (n : String) (fs : List String) (arg) :
    tryParseFlags n.toList (fs.map String.toList) arg =
      firstOf ((fs.map fun f => (⟨n, f, .value⟩ : Entry)).map (matchEntry arg)) := by
  induction fs with
  | nil => rfl
  | cons f fs ih =>
    simp only [List.map_cons, firstOf_cons, tryParseFlags, ih]
    simp only [matchEntry]
    rcases tryParseArg f.toList arg with _ | _ | v <;> rfl

theorem flagLoop_value (n : String) (fs : List String) (t : List FlagValue) (arg) :
    flagLoop (⟨(n :: fs).map String.toList, false⟩ :: t) arg =
      orElse (firstOf (((n :: fs).map fun f => (⟨n, f, .value⟩ : Entry)).map (matchEntry arg))) (flagLoop t arg) := by
  rw [flagLoop, if_neg (by simp)]
  have := tryParseFlags_eq n (n :: fs) arg
  rw [show ((n :: fs).map String.toList).headD [] = n.toList from rfl, this]
  generalize firstOf (((n :: fs).map fun f => (⟨n, f, .value⟩ : Entry)).map (matchEntry arg)) = r
  cases r <;> rfl

theorem flagLoop_single (n : String) (m : Str → Option Str)
    (hm : ∀ v, checkSet n.toList v = match m v with | some w => .self n.toList w | none => .fail) (t : List FlagValue) (arg) :
    flagLoop (⟨[n.toList], true⟩ :: t) arg = orElse (firstOf ([(⟨n, n, .opt m⟩ : Entry)].map (matchEntry arg))) (flagLoop t arg) := by
  rw [flagLoop, if_pos rfl]
  simp only [List.map_cons, List.map_nil, firstOf_cons, firstOf, orElse_no, List.headD_cons]
  rw [trySingleFlag_eq]
  simp only [matchEntry, trySingleFlag]
  rcases tryParseArg n.toList arg with _ | _ | v
  · rfl
  · simp only [hm]
    cases m [] <;> rfl
  · simp only [hm]
    cases m v <;> rfl

theorem checkSet_some (n : String) (h : n ≠ "--unified") (v : Str) :
    checkSet n.toList v = match (some v : Option Str) with | some w => .self n.toList w | none => .fail := by
  unfold checkSet
  rw [if_neg]
  rintro ⟨h1, _⟩
  exact h (String.toList_injective h1)

theorem checkSet_unified (v : Str) : checkSet "--unified".toList v =
    match triState v with | some w => .self "--unified".toList w | none => .fail := by
  unfold checkSet triState
  by_cases h : v ∈ ["".toList, "true".toList, "false".toList]
  · rw [if_neg (fun h' => h'.2 h), if_pos h]
  · rw [if_pos ⟨rfl, h⟩, if_neg h]

theorem flagLoop_v1 (a : String) (t arg) :
    flagLoop (⟨[a.toList], false⟩ :: t) arg = orElse (matchEntry arg ⟨a, a, .value⟩) (flagLoop t arg) := by
  have := flagLoop_value a [] t arg
  simpa only [List.map_cons, List.map_nil, firstOf_cons, firstOf, orElse_no] using this

theorem flagLoop_v2 (a b : String) (t arg) :
    flagLoop (⟨[a.toList, b.toList], false⟩ :: t) arg =
      orElse (matchEntry arg ⟨a, a, .value⟩) (orElse (matchEntry arg ⟨a, b, .value⟩) (flagLoop t arg)) := by
  have := flagLoop_value a [b] t arg
  simpa only [List.map_cons, List.map_nil, firstOf_cons, firstOf, orElse_no, orElse_assoc] using this

theorem flagLoop_s1 (a : String) (h : (a == "--unified") = false) (t arg) :
    flagLoop (⟨[a.toList], true⟩ :: t) arg = orElse (matchEntry arg ⟨a, a, .opt some⟩) (flagLoop t arg) := by
  have := flagLoop_single a some (checkSet_some a (by simpa using h)) t arg
  simpa only [List.map_cons, List.map_nil, firstOf_cons, firstOf, orElse_no] using this

set_option simprocs false in
theorem flagLoop_unified (t arg) :
    flagLoop (⟨["--unified".toList], true⟩ :: t) arg =
      orElse (matchEntry arg ⟨"--unified", "--unified", .opt triState⟩) (flagLoop t arg) := by
  have := flagLoop_single "--unified" triState checkSet_unified t arg
  simpa only [List.map_cons, List.map_nil, firstOf_cons, firstOf, orElse_no] using this

theorem flagLoop_nil (arg) : flagLoop [] arg = .no := rfl

set_option simprocs false in
/-- The code consults exactly the specified table. -/
theorem recog_eq (cmd : Cmd) (arg : Str) : recog cmd arg = firstOf ((table cmd).map (matchEntry arg)) := by
  have c1 : (Cmd.build = Cmd.setup) = False := eq_false (by decide)
  have c2 : (Cmd.build = Cmd.test) = False := eq_false (by decide)
  have c3 : (Cmd.run = Cmd.setup) = False := eq_false (by decide)
  have c4 : (Cmd.run = Cmd.test) = False := eq_false (by decide)
  have c5 : (Cmd.test = Cmd.setup) = False := eq_false (by decide)
  have c6 : (Cmd.exec = Cmd.setup) = False := eq_false (by decide)
  have c7 : (Cmd.exec = Cmd.test) = False := eq_false (by decide)
  have c8 : (Cmd.setup = Cmd.test) = False := eq_false (by decide)
  unfold recog flagTable table
  cases cmd <;>
  simp only [exact_eq1, exact_eq2, single_eq, eqSuffix_eq, required_eq, useFilePatches_eq, parseStackTrace_eq,
    flagLoop_v1, flagLoop_v2, flagLoop_unified, flagLoop_nil, firstOf_cons, firstOf, orElse_no, orElse_assoc,
    List.map_cons, List.map_nil, List.cons_append, List.nil_append, List.append_nil, if_true, if_false, c1, c2, c3, c4, c5, c6, c7, c8,
    flagLoop_s1 "--log-debug" (by decide), flagLoop_s1 "--go" (by decide), flagLoop_s1 "--xgo-race-safe" (by decide),
    flagLoop_s1 "--delete" (by decide), flagLoop_s1 "--patch-goroot-in-place" (by decide),
    flagLoop_s1 "--skip-rebuild-compiler-and-go" (by decide)]

theorem parse_cons (cmd : Cmd) (arg : Str) (rest : List Str) : parse cmd (arg :: rest) =
    if !dash arg then
      if cmd = .run ∨ cmd = .exec then some { remain := arg :: rest }
      else (parse cmd rest).map (·.addRemain [arg])
    else if cmd = .test ∧ (arg = "-args".toList ∨ arg = "--args".toList) then some { testArgs := rest }
    else if arg = "--".toList then some { remain := rest }
    else if arg = "-".toList then none
    else
      match recog cmd arg with
      | .fail => none
      | .self n v => (parse cmd rest).map (·.addFlag n v)
      | .next n =>
        match rest with
        | [] => none
        | v :: rest' => (parse cmd rest').map (·.addFlag n v)
      | .no =>
        if '=' ∈ arg then (parse cmd rest).map (·.addRemain [arg])
        else
          match rest with
          | [] => some { remain := [arg] }
          | next :: rest' =>
            if !dash next then (parse cmd rest').map (·.addRemain [arg, next])
            else (parse cmd (next :: rest')).map (·.addRemain [arg]) := by
  rw [parse.eq_def]
  rfl

theorem parse_nil (cmd : Cmd) : parse cmd [] = some {} := by rw [parse.eq_def]

theorem table_flags (cmd : Cmd) : ∀ e ∈ table cmd, '=' ∉ e.flag.toList ∧
    e.flag.toList ∉ ["-".toList, "--".toList, "-args".toList, "--args".toList] ∧ dash e.flag.toList = true := by
  cases cmd <;> decide +kernel

theorem table_distinct (cmd : Cmd) : ((table cmd).map (·.flag)).Nodup := by
  cases cmd <;> decide +kernel

theorem table_kinds (cmd : Cmd) : ∀ e ∈ table cmd, ∀ m, e.kind = .opt m → m [] ≠ none := by
  have key : ∀ e ∈ table cmd, (match e.kind with | .opt m => (m []).isSome | _ => true) = true := by
    cases cmd <;> decide +kernel
  intro e he m hm h
  have := key e he
  rw [hm] at this
  simp [h] at this

theorem firstOf_unique : ∀ (l : List Recog) (r : Recog), r ≠ .no → r ∈ l → (∀ x ∈ l, x = .no ∨ x = r) → firstOf l = r
  | [], _, _, h, _ => by simp at h
  | x :: l, r, hr, hm, ha => by
    rw [firstOf_cons]
    rcases ha x (by simp) with hx | hx
    · subst hx
      rcases List.mem_cons.1 hm with h | h
      · exact absurd h hr
      · exact firstOf_unique l r hr h (fun y hy => ha y (by simp [hy]))
    · subst hx
      cases x <;> first | exact absurd rfl hr | rfl

theorem firstOf_mem : ∀ (l : List Recog), firstOf l = .no ∨ firstOf l ∈ l
  | [] => Or.inl rfl
  | x :: l => by
    rw [firstOf_cons]
    cases x with
    | no => rcases firstOf_mem l with h | h
            · exact Or.inl h
            · exact Or.inr (List.mem_cons_of_mem _ h)
    | self n v => exact Or.inr (List.mem_cons_self ..)
    | next n => exact Or.inr (List.mem_cons_self ..)
    | fail => exact Or.inr (List.mem_cons_self ..)

theorem firstOf_no {l : List Recog} (h : firstOf l = .no) : ∀ x ∈ l, x = .no := by
  induction l with
  | nil => simp
  | cons y l ih =>
    rw [firstOf_cons] at h
    cases y with
    | no =>
      intro x hx
      rcases List.mem_cons.1 hx with rfl | hx
      · rfl
      · exact ih h x hx
    | self n v => cases h
    | next n => cases h
    | fail => cases h

theorem nodup_map_inj {l : List Entry} (h : (l.map (·.flag)).Nodup) {a b : Entry} (ha : a ∈ l) (hb : b ∈ l)
    (hf : a.flag = b.flag) : a = b := by
  induction l with
  | nil => simp at ha
  | cons x l ih =>
    rw [List.map_cons, List.nodup_cons] at h
    rcases List.mem_cons.1 ha with ea | ha'
    · rcases List.mem_cons.1 hb with eb | hb'
      · rw [ea, eb]
      · exact absurd (ea ▸ List.mem_map.2 ⟨b, hb', hf.symm⟩) h.1
    · rcases List.mem_cons.1 hb with eb | hb'
      · exact absurd (eb ▸ List.mem_map.2 ⟨a, ha', hf⟩) h.1
      · exact ih h.2 ha' hb'

/-- **C36.** For every argument: xgo takes it as one of its flags exactly if it is that flag, or, if the flag takes a
    value, that flag followed by `=`; the value is what the table says. It is left alone exactly if it is none. -/
theorem C36_recognised (cmd : Cmd) (arg : Str) :
    (∀ r, r ≠ .no → (recog cmd arg = r ↔ Means cmd arg r)) ∧ (recog cmd arg = .no ↔ ∀ r, ¬ Means cmd arg r) := by
  have hfwd : recog cmd arg ≠ .no → Means cmd arg (recog cmd arg) := by
    intro hr
    rw [recog_eq] at hr ⊢
    rcases firstOf_mem ((table cmd).map (matchEntry arg)) with h | h
    · exact absurd h hr
    · obtain ⟨e, he, hm⟩ := List.mem_map.1 h
      exact ⟨e, he, (matchEntry_says arg e (table_kinds cmd e he) _).2 ⟨hm, hr⟩⟩
  have hbwd : ∀ r, Means cmd arg r → recog cmd arg = r := by
    rintro r ⟨e, he, hs⟩
    obtain ⟨h1, h2⟩ := (matchEntry_says arg e (table_kinds cmd e he) r).1 hs
    rw [recog_eq]
    refine firstOf_unique _ r h2 (List.mem_map.2 ⟨e, he, h1⟩) ?_
    intro x hx
    obtain ⟨e', he', hx'⟩ := List.mem_map.1 hx
    by_cases hxn : x = .no
    · exact Or.inl hxn
    · right
      have hs' := (matchEntry_says arg e' (table_kinds cmd e' he') x).2 ⟨hx', hxn⟩
      have hf : e.flag.toList = e'.flag.toList :=
        shape_unique (table_flags cmd e he).1 (table_flags cmd e' he').1 (says_shape hs) (says_shape hs')
      have : e' = e := by
        have hd := table_distinct cmd
        have hf' : e.flag = e'.flag := String.toList_injective hf
        exact (nodup_map_inj hd he he' hf').symm
      subst this
      rw [← hx', h1]
  refine ⟨fun r hr => ⟨fun h => h ▸ hfwd (by rw [h]; exact hr), hbwd r⟩, ?_⟩
  constructor
  · rintro h r hm
    have := hbwd r hm
    have hr : r = .no := by rw [← this, h]
    obtain ⟨e, he, hs⟩ := hm
    exact absurd hr ((matchEntry_says arg e (table_kinds cmd e he) r).1 hs).2
  · intro h
    exact Classical.byContradiction fun hn => h _ (hfwd hn)

theorem means_dash {cmd : Cmd} {arg : Str} {r : Recog} (h : Means cmd arg r) :
    dash arg = true ∧ arg ∉ ["-".toList, "--".toList, "-args".toList, "--args".toList] := by
  obtain ⟨e, he, hs⟩ := h
  obtain ⟨h1, h2, h3⟩ := table_flags cmd e he
  rcases says_shape hs with rfl | ⟨v, rfl⟩
  · exact ⟨h3, h2⟩
  · constructor
    · unfold dash at *
      obtain ⟨t, ht⟩ := List.isPrefixOf_iff_prefix.1 h3
      exact List.isPrefixOf_iff_prefix.2 ⟨t ++ '=' :: v, by rw [← ht]; simp⟩
    · intro hm
      have : '=' ∈ e.flag.toList ++ '=' :: v := by simp
      revert this
      simp only [List.mem_cons, List.not_mem_nil, or_false] at hm
      rcases hm with h | h | h | h <;> rw [h] <;> decide

theorem dash_iff (arg : Str) : dash arg = true ↔ ∃ s, arg = '-' :: s := by
  cases arg with
  | nil => simp [dash]
  | cons c s => simp only [dash, List.isPrefixOf, Bool.and_true, beq_iff_eq, List.cons.injEq, exists_and_left, exists_eq', and_true]; exact eq_comm

/-- One round of the loop for a flag of xgo. -/
theorem parse_self {cmd : Cmd} {arg n v : Str} (h : Means cmd arg (.self n v)) (rest : List Str) :
    parse cmd (arg :: rest) = (parse cmd rest).map (·.addFlag n v) := by
  obtain ⟨h1, h2⟩ := means_dash h
  simp only [List.mem_cons, List.not_mem_nil, or_false, not_or] at h2
  obtain ⟨a1, a2, a3, a4⟩ := h2
  rw [parse_cons, h1, if_neg (by simp), if_neg (by rintro ⟨_, h | h⟩; exact a3 h; exact a4 h), if_neg a2, if_neg a1,
    ((C36_recognised cmd arg).1 _ (by simp)).2 h]

theorem parse_next {cmd : Cmd} {arg n : Str} (h : Means cmd arg (.next n)) (v : Str) (rest : List Str) :
    parse cmd (arg :: v :: rest) = (parse cmd rest).map (·.addFlag n v) := by
  obtain ⟨h1, h2⟩ := means_dash h
  simp only [List.mem_cons, List.not_mem_nil, or_false, not_or] at h2
  obtain ⟨a1, a2, a3, a4⟩ := h2
  rw [parse_cons, h1, if_neg (by simp), if_neg (by rintro ⟨_, h | h⟩; exact a3 h; exact a4 h), if_neg a2, if_neg a1,
    ((C36_recognised cmd arg).1 _ (by simp)).2 h]

/-- **C36.** `-f v` and `-f=v` are the same for every flag that takes a value, whatever the value and whatever
    follows: in particular the value may start with `-` and may contain `=`. -/
theorem C36_two_forms (cmd : Cmd) (e : Entry) (he : e ∈ table cmd) (hk : e.kind = .value) (v : Str) (rest : List Str) :
    parse cmd (e.flag.toList :: v :: rest) = parse cmd ((e.flag.toList ++ '=' :: v) :: rest) := by
  rw [parse_next ⟨e, he, by rw [hk]; exact .value⟩, parse_self ⟨e, he, by rw [hk]; exact .valueEq⟩]

/-- **C36.** The value given arrives: the flag, with this value, is the first one in the result. A flag at the end
    without its value is an error. -/
theorem C36_value_arrives (cmd : Cmd) (e : Entry) (he : e ∈ table cmd) (hk : e.kind = .value) (v : Str) (rest : List Str)
    (p : Parsed) (hp : parse cmd rest = some p) :
    parse cmd (e.flag.toList :: v :: rest) = some { p with flags := (e.name.toList, v) :: p.flags } ∧
    parse cmd [e.flag.toList] = none := by
  constructor
  · rw [parse_next ⟨e, he, by rw [hk]; exact .value⟩, hp]; rfl
  · obtain ⟨_, h2, h1⟩ := table_flags cmd e he
    simp only [List.mem_cons, List.not_mem_nil, or_false, not_or] at h2
    obtain ⟨a1, a2, a3, a4⟩ := h2
    rw [parse_cons, h1, if_neg (by simp), if_neg (by rintro ⟨_, h | h⟩; exact a3 h; exact a4 h), if_neg a2, if_neg a1,
      ((C36_recognised cmd _).1 (.next e.name.toList) (by simp)).2 ⟨e, he, by rw [hk]; exact .value⟩]

/-- `-modfile` is not taken for `-mod`, and its value is kept. -/
example : parse .test ["-modfile".toList, "-x=1".toList, "--mod=vendor".toList] =
    some { flags := [("-modfile".toList, "-x=1".toList), ("-mod".toList, "vendor".toList)] } := by decide +kernel

/-! ### What is passed on -/

theorem parse_foreign {cmd : Cmd} {arg : Str} (h : Foreign cmd arg) (rest : List Str) :
    parse cmd (arg :: rest) =
      if '=' ∈ arg then (parse cmd rest).map (·.addRemain [arg])
      else match rest with
        | [] => some { remain := [arg] }
        | next :: rest' =>
          if !dash next then (parse cmd rest').map (·.addRemain [arg, next])
          else (parse cmd (next :: rest')).map (·.addRemain [arg]) := by
  obtain ⟨h1, h2, h3, h4, h5⟩ := h
  rw [parse_cons, (dash_iff arg).2 h1, if_neg (by simp), if_neg h5, if_neg h4, if_neg h3,
    (C36_recognised cmd arg).2.2 h2]

theorem recog_no_foreign {cmd : Cmd} {arg : Str} (h1 : ¬ (!dash arg) = true)
    (h2 : ¬ (cmd = .test ∧ (arg = "-args".toList ∨ arg = "--args".toList))) (h3 : arg ≠ "--".toList) (h4 : arg ≠ "-".toList)
    (hr : recog cmd arg = .no) : Foreign cmd arg :=
  ⟨(dash_iff arg).1 (by simpa using h1), (C36_recognised cmd arg).2.1 hr, h4, h3, h2⟩

/-- **C48.** No argument is invented, duplicated or reordered: what is passed to go is a subsequence of the arguments
    and what is passed to the test binary is everything after `-args`. -/
theorem C48_subsequence (cmd : Cmd) : ∀ (args : List Str) (p : Parsed), parse cmd args = some p →
    p.remain.Sublist args ∧
    (p.testArgs = [] ∨ ∃ pre s, cmd = .test ∧ (s = "-args".toList ∨ s = "--args".toList) ∧ args = pre ++ s :: p.testArgs)
  | [], p, h => by
    simp only [parse_nil, Option.some.injEq] at h
    subst h; simp
  | arg :: rest, p, h => by
    have lift : ∀ (q : Parsed) (pre : List Str) (rest' : List Str), arg :: rest = pre ++ rest' →
        (q.remain.Sublist rest' ∧ (q.testArgs = [] ∨ ∃ pre s, cmd = .test ∧ (s = "-args".toList ∨ s = "--args".toList) ∧
          rest' = pre ++ s :: q.testArgs)) →
        (∀ n v, (q.addFlag n v).remain.Sublist (arg :: rest)) ∧ ((q.addRemain pre).remain.Sublist (arg :: rest)) ∧
        (q.testArgs = [] ∨ ∃ pre s, cmd = .test ∧ (s = "-args".toList ∨ s = "--args".toList) ∧
          arg :: rest = pre ++ s :: q.testArgs) := by
      intro q pre rest' he hq
      rw [he]
      refine ⟨fun n v => List.Sublist.trans hq.1 (List.sublist_append_right _ _), ?_, ?_⟩
      · exact List.Sublist.append (List.Sublist.refl _) hq.1
      · rcases hq.2 with h | ⟨pre', s, h1, h2, h3⟩
        · exact Or.inl h
        · exact Or.inr ⟨pre ++ pre', s, h1, h2, by rw [h3]; simp⟩
    rw [parse_cons] at h
    split at h
    · split at h
      · cases h; exact ⟨List.Sublist.refl _, Or.inl rfl⟩
      · cases hp : parse cmd rest with
        | none => rw [hp] at h; cases h
        | some q =>
          rw [hp] at h; cases h
          have := lift q [arg] rest rfl (C48_subsequence cmd rest q hp)
          exact ⟨this.2.1, this.2.2⟩
    · rename_i hd
      split at h
      · rename_i ht; cases h
        exact ⟨List.nil_sublist _, Or.inr ⟨[], arg, ht.1, ht.2, rfl⟩⟩
      · rename_i ht
        split at h
        · cases h; exact ⟨List.sublist_cons_self _ _, Or.inl rfl⟩
        · rename_i h2
          split at h
          · cases h
          · rename_i h3
            cases hr : recog cmd arg with
            | fail => rw [hr] at h; cases h
            | self n v =>
              rw [hr] at h
              cases hp : parse cmd rest with
              | none => simp only [hp] at h; cases h
              | some q =>
                simp only [hp] at h; cases h
                have := lift q [arg] rest rfl (C48_subsequence cmd rest q hp)
                exact ⟨this.1 n v, this.2.2⟩
            | next n =>
              rw [hr] at h
              cases rest with
              | nil => cases h
              | cons v rest' =>
                cases hp : parse cmd rest' with
                | none => simp only [hp] at h; cases h
                | some q =>
                  simp only [hp] at h; cases h
                  have := lift q [arg, v] rest' rfl (C48_subsequence cmd rest' q hp)
                  exact ⟨this.1 n v, this.2.2⟩
            | no =>
              rw [hr] at h
              simp only at h
              split at h
              · cases hp : parse cmd rest with
                | none => rw [hp] at h; cases h
                | some q =>
                  rw [hp] at h; cases h
                  have := lift q [arg] rest rfl (C48_subsequence cmd rest q hp)
                  exact ⟨this.2.1, this.2.2⟩
              · cases rest with
                | nil => cases h; exact ⟨List.Sublist.refl _, Or.inl rfl⟩
                | cons v rest' =>
                  simp only at h
                  split at h
                  · cases hp : parse cmd rest' with
                    | none => rw [hp] at h; cases h
                    | some q =>
                      rw [hp] at h; cases h
                      have := lift q [arg, v] rest' rfl (C48_subsequence cmd rest' q hp)
                      exact ⟨this.2.1, this.2.2⟩
                  · cases hp : parse cmd (v :: rest') with
                    | none => rw [hp] at h; cases h
                    | some q =>
                      rw [hp] at h; cases h
                      have := lift q [arg] (v :: rest') rfl (C48_subsequence cmd (v :: rest') q hp)
                      exact ⟨this.2.1, this.2.2⟩

/-- **C48.** A command line without flags of xgo is passed on unchanged. -/
theorem C48_untouched (cmd : Cmd) : ∀ (args : List Str), (∀ a ∈ args, (∀ s, a ≠ '-' :: s) ∨ Foreign cmd a) →
    parse cmd args = some { remain := args }
  | [], _ => rfl
  | arg :: rest, h => by
    by_cases hd : dash arg = true
    · have hf : Foreign cmd arg := by
        rcases h arg (by simp) with h' | h'
        · obtain ⟨s, hs⟩ := (dash_iff arg).1 hd; exact absurd hs (h' s)
        · exact h'
      rw [parse_foreign hf]
      split
      · rw [C48_untouched cmd rest (fun a ha => h a (by simp [ha]))]; rfl
      · cases rest with
        | nil => rfl
        | cons v rest' =>
          simp only
          split
          · rw [C48_untouched cmd rest' (fun a ha => h a (by simp [ha]))]; rfl
          · rw [C48_untouched cmd (v :: rest') (fun a ha => h a (by simp only [List.mem_cons] at ha ⊢; exact Or.inr ha))]; rfl
    · rw [parse_cons, if_pos (by simpa using hd)]
      split
      · rfl
      · rw [C48_untouched cmd rest (fun a ha => h a (by simp [ha]))]; rfl

/-- **C48.** Everything after `-args` reaches the test binary unchanged, whatever it looks like, provided the
    arguments before it can be read on their own and do not end the flags with `--`. -/
theorem C48_test_args : ∀ (pre : List Str) (p : Parsed) (rest : List Str) (s : Str),
    (s = "-args".toList ∨ s = "--args".toList) → parse .test pre = some p →
    "-args".toList ∉ pre → "--args".toList ∉ pre → "--".toList ∉ pre →
    parse .test (pre ++ s :: rest) = some { p with testArgs := rest }
  | [], p, rest, s, hs, hp, _, _, _ => by
    simp only [parse_nil, Option.some.injEq] at hp
    subst hp
    have hd : dash s = true := by rcases hs with rfl | rfl <;> rfl
    rw [List.nil_append, parse_cons, hd, if_neg (by simp), if_pos ⟨rfl, hs⟩]
  | arg :: pre, p, rest, s, hs, hp, n1, n2, n3 => by
    have sd : dash s = true := by rcases hs with rfl | rfl <;> rfl
    have ih : ∀ (pre' : List Str) (_ : pre'.length < (arg :: pre).length) (_ : ∀ x ∈ pre', x ∈ arg :: pre) (q : Parsed),
        parse .test pre' = some q → parse .test (pre' ++ s :: rest) = some { q with testArgs := rest } := by
      intro pre' hl hx q hq
      have : pre'.length < pre.length + 1 := by simpa using hl
      exact C48_test_args pre' q rest s hs hq (fun h => n1 (hx _ h)) (fun h => n2 (hx _ h)) (fun h => n3 (hx _ h))
    rw [parse_cons] at hp
    rw [List.cons_append, parse_cons]
    split at hp
    · rename_i hd
      rw [if_pos hd]
      rw [if_neg (by simp)] at hp ⊢
      cases hq : parse .test pre with
      | none => rw [hq] at hp; cases hp
      | some q => rw [hq] at hp; cases hp; rw [ih pre (by simp) (by simp +contextual) q hq]; rfl
    · rename_i hd
      rw [if_neg hd]
      split at hp
      · rename_i ht
        rcases ht.2 with h | h
        · exact absurd (by simp [h]) n1
        · exact absurd (by simp [h]) n2
      · rename_i ht
        rw [if_neg ht]
        split at hp
        · rename_i h; exact absurd (by simp [h]) n3
        · rename_i h2
          rw [if_neg h2]
          split at hp
          · cases hp
          · rename_i h3
            rw [if_neg h3]
            cases hr : recog .test arg with
            | fail => rw [hr] at hp; cases hp
            | self n v =>
              rw [hr] at hp
              cases hq : parse .test pre with
              | none => simp only [hq] at hp; cases hp
              | some q => simp only [hq] at hp; cases hp; simp only; rw [ih pre (by simp) (by simp +contextual) q hq]; rfl
            | next n =>
              rw [hr] at hp
              cases pre with
              | nil => cases hp
              | cons v pre' =>
                cases hq : parse .test pre' with
                | none => simp only [hq] at hp; cases hp
                | some q =>
                  simp only [hq] at hp; cases hp
                  simp only [List.cons_append]
                  rw [ih pre' (by simp; omega) (by simp +contextual) q hq]; rfl
            | no =>
              rw [hr] at hp
              simp only at hp ⊢
              split at hp
              · rename_i he
                rw [if_pos he]
                cases hq : parse .test pre with
                | none => rw [hq] at hp; cases hp
                | some q => rw [hq] at hp; cases hp; rw [ih pre (by simp) (by simp +contextual) q hq]; rfl
              · rename_i he
                rw [if_neg he]
                cases pre with
                | nil =>
                  cases hp
                  simp only [List.nil_append, sd]
                  simp only [Bool.not_true, Bool.false_eq_true, if_false]
                  rw [show s :: rest = [] ++ s :: rest from rfl, ih [] (by simp) (by simp) {} rfl]; rfl
                | cons v pre' =>
                  simp only [List.cons_append] at hp ⊢
                  split at hp
                  · rename_i hv
                    rw [if_pos hv]
                    cases hq : parse .test pre' with
                    | none => rw [hq] at hp; cases hp
                    | some q => rw [hq] at hp; cases hp; rw [ih pre' (by simp; omega) (by simp +contextual) q hq]; rfl
                  · rename_i hv
                    rw [if_neg hv]
                    cases hq : parse .test (v :: pre') with
                    | none => rw [hq] at hp; cases hp
                    | some q =>
                      rw [hq] at hp; cases hp
                      rw [← List.cons_append, ih (v :: pre') (by simp) (by simp +contextual) q hq]; rfl
  termination_by pre => pre.length

theorem completeFlags_parse {cmd : Cmd} {pre : List Str} {fl : List (Str × Str)} {pass : List Str}
    (h : CompleteFlags cmd pre fl pass) (rest : List Str) :
    parse cmd (pre ++ rest) = (parse cmd rest).map fun p => { p with flags := fl ++ p.flags, remain := pass ++ p.remain } := by
  induction h with
  | nil => simp
  | @cons a fl pass as fls passes hc _ ih =>
    have comb : ∀ (f : Parsed → Parsed), (∀ p : Parsed, f p = { p with flags := fl ++ p.flags, remain := pass ++ p.remain }) →
        (parse cmd (as ++ rest)).map f =
        (parse cmd rest).map fun p => { p with flags := fl ++ fls ++ p.flags, remain := pass ++ passes ++ p.remain } := by
      intro f hf
      rw [ih, Option.map_map]
      congr 1
      funext p
      simp [hf]
    cases hc with
    | own hm =>
      rw [List.append_assoc, List.singleton_append, parse_self hm]
      exact comb _ (fun p => by simp [Parsed.addFlag])
    | ownNext hm =>
      rw [List.append_assoc, List.cons_append, List.singleton_append, parse_next hm]
      exact comb _ (fun p => by simp [Parsed.addFlag])
    | goEq hf he =>
      rw [List.append_assoc, List.singleton_append, parse_foreign hf, if_pos he]
      exact comb _ (fun p => by simp [Parsed.addRemain])
    | @goNext arg v hf he hv =>
      have hd : dash v = false := by
        cases hb : dash v with
        | false => rfl
        | true => obtain ⟨s, hs⟩ := (dash_iff v).1 hb; exact absurd hs (hv s)
      rw [List.append_assoc, List.cons_append, List.singleton_append, parse_foreign hf, if_neg he]
      simp only [hd, Bool.not_false, if_true]
      exact comb _ (fun p => by simp [Parsed.addRemain])

/-- **C48**, in part: with `run` and `exec`, the program and all its arguments, whatever they look like, reach it
    unchanged and none of them is taken by xgo, if the flags before the program are complete. Missing: flags of go that
    take no value, such as `-race`; for these it is false, see `C48_counterexample`. -/
theorem C48_program_args_partial (cmd : Cmd) (hc : cmd = .run ∨ cmd = .exec) (pre : List Str) (fl : List (Str × Str))
    (pass : List Str) (h : CompleteFlags cmd pre fl pass) (prog : Str) (hp : ∀ s, prog ≠ '-' :: s) (rest : List Str) :
    parse cmd (pre ++ prog :: rest) = some { flags := fl, remain := pass ++ prog :: rest } := by
  have hd : dash prog = false := by
    cases hb : dash prog with
    | false => rfl
    | true => obtain ⟨s, hs⟩ := (dash_iff prog).1 hb; exact absurd hs (hp s)
  rw [completeFlags_parse h, parse_cons, hd, if_pos (by simp), if_pos hc]
  simp

/-- **C48**, in part: with `build` and `test`, complete flags are read the same wherever they stand between the
    packages. Missing: as before. -/
theorem C48_flags_anywhere_partial (cmd : Cmd) (hc : cmd = .build ∨ cmd = .test) (pre : List Str) (fl : List (Str × Str))
    (pass : List Str) (h : CompleteFlags cmd pre fl pass) (pkg : Str) (hp : ∀ s, pkg ≠ '-' :: s) (rest : List Str) :
    parse cmd (pre ++ pkg :: rest) =
      (parse cmd rest).map fun p => { p with flags := fl ++ p.flags, remain := pass ++ pkg :: p.remain } := by
  have hd : dash pkg = false := by
    cases hb : dash pkg with
    | false => rfl
    | true => obtain ⟨s, hs⟩ := (dash_iff pkg).1 hb; exact absurd hs (hp s)
  rw [completeFlags_parse h, parse_cons, hd, if_pos (by simp), if_neg (by rcases hc with rfl | rfl <;> simp), Option.map_map]
  congr 1

/-- **C48** is false in general. `xgo run -race main.go -v -o x`: the arguments `-v -o x` of the program are taken by
    xgo. `xgo build -ldflags -v .`: the value of `-ldflags` is taken as the flag `-v`, and go is told `-v -ldflags .`.
    `xgo test -o bin ./p`: the output file is not passed to go. -/
theorem C48_counterexample :
    parse .run (["-race", "main.go", "-v", "-o", "x"].map String.toList) =
      some { flags := [("-v".toList, []), ("-o".toList, "x".toList)], remain := ["-race".toList, "main.go".toList] } ∧
    (∀ e : Env, e.rebuild = false → e.overlayFile = [] → e.linkFlags = [] →
      (parse .build (["-ldflags", "-v", "."].map String.toList)).map (fun p => (goCommand .build e p).1) =
        some (["build", "-v", "-ldflags", "."].map String.toList) ∧
      (parse .test (["-o", "bin", "./p"].map String.toList)).map (fun p => (goCommand .test e p).1) =
        some (["test", "./p"].map String.toList)) := by
  refine ⟨by decide +kernel, ?_⟩
  intro e h1 h2 h3
  have p1 : parse .build (["-ldflags", "-v", "."].map String.toList) =
      some { flags := [("-v".toList, [])], remain := ["-ldflags".toList, ".".toList] } := by decide +kernel
  have p2 : parse .test (["-o", "bin", "./p"].map String.toList) =
      some { flags := [("-o".toList, "bin".toList)], remain := ["./p".toList] } := by decide +kernel
  rw [p1, p2]
  refine ⟨?_, ?_⟩
  · simp only [Option.map_some, Option.some.injEq]
    unfold goCommand
    rw [h1, h2, h3]
    rfl
  · simp only [Option.map_some, Option.some.injEq]
    unfold goCommand
    rw [h1, h2, h3]
    rfl

/-- A command line to which the theorems apply. -/
example : CompleteFlags .run (["-tags", "x", "-ldflags=-v", "-p", "4", "--strace"].map String.toList)
    [("-tags".toList, "x".toList), ("--strace".toList, "on".toList)] (["-ldflags=-v", "-p", "4"].map String.toList) := by
  have ht : Means .run "-tags".toList (.next "-tags".toList) := ((C36_recognised _ _).1 _ (by simp)).1 (by decide +kernel)
  have hs : Means .run "--strace".toList (.self "--strace".toList "on".toList) :=
    ((C36_recognised _ _).1 _ (by simp)).1 (by decide +kernel)
  have h1 : Foreign .run "-ldflags=-v".toList := recog_no_foreign (by decide) (by decide) (by decide) (by decide) (by decide +kernel)
  have h2 : Foreign .run "-p".toList := recog_no_foreign (by decide) (by decide) (by decide) (by decide) (by decide +kernel)
  exact .cons (.ownNext ht) (.cons (.goEq h1 (by decide)) (.cons (.goNext h2 (by decide) (by intro s; simp))
    (.cons (.own hs) .nil)))

/-! ### The go command -/

/-- **C48.** Without `--debug`, go is called with the command, the options, everything that was passed on, in order,
    and, after `-args`, the arguments of the test binary; the options contain each flag of go that xgo reads itself,
    with its last value, and all values of `-gcflags` in order. -/
theorem C48_go_command (cmd : Cmd) (e : Env) (p : Parsed) (hd : p.debug = false) :
    ∃ opts, (goCommand cmd e p).1 =
      (match cmd with | .build => "build" | .run => "run" | .test => "test" | .exec => "exec" | .setup => "setup").toList :: opts ++
        p.remain ++ (if cmd = .test ∧ p.testArgs ≠ [] then "-args".toList :: p.testArgs else []) ∧
      (p.has "-a" = true → "-a".toList ∈ opts) ∧ (p.has "-v" = true → "-v".toList ∈ opts) ∧
      (p.has "-x" = true → "-x".toList ∈ opts) ∧ (p.has "-c" = true → "-c".toList ∈ opts) ∧
      (p.last "-run" ≠ [] → ["-run".toList, p.last "-run"] <:+: opts) ∧
      (p.last "-mod" ≠ [] → "-mod=".toList ++ p.last "-mod" ∈ opts) ∧
      (p.last "-modfile" ≠ [] → ["-modfile".toList, e.abs (p.last "-modfile")] <:+: opts) ∧
      (p.last "-tags" ≠ [] → ["-tags".toList, p.last "-tags"] <:+: opts) ∧
      (((p.flags.filter (·.1 = "-gcflags".toList)).map (·.2)).map ("-gcflags=".toList ++ ·) <:+: opts) ∧ (((p.flags.filter (·.1 = "--build-flag".toList)).map (·.2)) <:+: opts) ∧
      ((cmd = .build ∨ (cmd = .test ∧ p.has "-c" = true)) → p.has "--no-build-output" = false → p.last "-o" ≠ [] →
        p.last "--project-dir" = [] → ["-o".toList, p.last "-o"] <:+: opts) := by
  have inL : ∀ (l b : List Str), l <:+: l ++ b := fun l b => ⟨[], b, by simp⟩
  have inR : ∀ {l : List Str} (a b : List Str), l <:+: b → l <:+: a ++ b := by
    rintro l a _ ⟨x, y, rfl⟩
    exact ⟨a ++ x, y, by simp⟩
  have memR : ∀ {x : Str} (a b : List Str), x ∈ b → x ∈ a ++ b := fun a b h => List.mem_append_right _ h
  refine ⟨(if p.has "-a" || e.rebuild then ["-a".toList] else []) ++
    ((if p.has "-v" then ["-v".toList] else []) ++
    ((if p.has "-x" then ["-x".toList] else []) ++
    ((if p.has "-c" then ["-c".toList] else []) ++
    ((if p.last "-run" ≠ [] then ["-run".toList, p.last "-run"] else []) ++
    ((if e.overlayFile ≠ [] then ["-overlay".toList, e.overlayFile] else []) ++
    ((if p.last "-mod" ≠ [] then ["-mod=".toList ++ p.last "-mod"] else []) ++
    ((if p.last "-modfile" ≠ [] then ["-modfile".toList, e.abs (p.last "-modfile")] else []) ++
    ((if p.last "-tags" ≠ [] then ["-tags".toList, p.last "-tags"] else []) ++
    ((p.all "-gcflags").map ("-gcflags=".toList ++ ·) ++
    ((if (cmd == .build || (cmd == .test && p.has "-c")) && p.has "--no-build-output" then ["-o".toList, e.discardOut] else []) ++
    ((if (if !(cmd == .build || (cmd == .test && p.has "-c")) || p.has "--no-build-output" then [] else if p.last "-o" ≠ [] then
        (if p.last "--project-dir" ≠ [] then e.abs (p.last "-o") else p.last "-o") else []) ≠ [] then
        ["-o".toList, (if !(cmd == .build || (cmd == .test && p.has "-c")) || p.has "--no-build-output" then [] else if p.last "-o" ≠ [] then
        (if p.last "--project-dir" ≠ [] then e.abs (p.last "-o") else p.last "-o") else [])] else []) ++
    (p.all "--build-flag" ++ e.linkFlags)))))))))))), ?_, ?_, ?_, ?_, ?_, ?_, ?_, ?_, ?_, ?_, ?_, ?_⟩
  · unfold goCommand
    simp only [hd, Bool.false_and, Bool.not_false, Bool.and_true, Bool.or_false, Bool.true_and, Bool.false_eq_true, if_false,
      and_true, List.append_assoc, List.append_nil, List.nil_append, List.singleton_append, List.cons_append]
    cases cmd <;> rfl
  · intro h; rw [h, Bool.true_or, if_pos rfl]; exact List.mem_append_left _ (List.mem_cons_self ..)
  · intro h; rw [h, if_pos rfl]; exact memR _ _ (List.mem_append_left _ (List.mem_cons_self ..))
  · intro h; rw [h, if_pos rfl]; exact memR _ _ (memR _ _ (List.mem_append_left _ (List.mem_cons_self ..)))
  · intro h; rw [h, if_pos rfl]; exact memR _ _ (memR _ _ (memR _ _ (List.mem_append_left _ (List.mem_cons_self ..))))
  · intro h; rw [if_pos h]; repeat' first | exact inL _ _ | apply inR
  · intro h; rw [if_pos (c := p.last "-mod" ≠ []) h]
    exact memR _ _ (memR _ _ (memR _ _ (memR _ _ (memR _ _ (memR _ _ (List.mem_append_left _ (List.mem_cons_self ..)))))))
  · intro h; rw [if_pos (c := p.last "-modfile" ≠ []) h]; repeat' first | exact inL _ _ | apply inR
  · intro h; rw [if_pos (c := p.last "-tags" ≠ []) h]; repeat' first | exact inL _ _ | apply inR
  · repeat' first | exact inL _ _ | apply inR
  · repeat' first | exact inL _ _ | apply inR
  · intro hc hn ho hpd
    have hw : (cmd == .build || (cmd == .test && p.has "-c")) = true := by
      rcases hc with rfl | ⟨rfl, h⟩
      · rfl
      · rw [h]; rfl
    have : (if !(cmd == .build || (cmd == .test && p.has "-c")) || p.has "--no-build-output" then ([] : Str) else if p.last "-o" ≠ [] then
        (if p.last "--project-dir" ≠ [] then e.abs (p.last "-o") else p.last "-o") else []) = p.last "-o" := by
      rw [hw, hn, if_neg (by simp), if_pos ho, if_neg (by simp [hpd])]
    rw [this, if_pos (c := p.last "-o" ≠ []) ho]
    repeat' first | exact inL _ _ | apply inR

/-- **C48.** Debugging is on exactly if the last `--debug` that was given does not say `false`. -/
theorem C48_debug (p : Parsed) : p.debug = true ↔
    ∃ pre v post, p.flags = pre ++ ("--debug".toList, v) :: post ∧ (∀ x ∈ post, x.1 ≠ "--debug".toList) ∧ v ≠ "false".toList := by
  have key : ∀ (name : Str) (fl : List (Str × Str)),
      (fl.any (·.1 = name) && ((fl.filter (·.1 = name)).getLast?.map (·.2)).getD [] != "false".toList) = true ↔
      ∃ pre v post, fl = pre ++ (name, v) :: post ∧ (∀ x ∈ post, x.1 ≠ name) ∧ v ≠ "false".toList := by
    intro name fl
    constructor
    · intro h
      rw [Bool.and_eq_true] at h
      obtain ⟨h1, h2⟩ := h
      cases hl : (fl.filter (·.1 = name)).getLast? with
      | none =>
        rw [List.getLast?_eq_none_iff] at hl
        obtain ⟨x, hx, hn⟩ := List.any_eq_true.1 h1
        have : x ∈ fl.filter (·.1 = name) := List.mem_filter.2 ⟨hx, hn⟩
        rw [hl] at this; cases this
      | some y =>
        rw [hl] at h2
        have h2 : y.2 ≠ "false".toList := by simpa using h2
        obtain ⟨ys, hys⟩ := List.getLast?_eq_some_iff.1 hl
        obtain ⟨l1, l2, e, e1, e2⟩ := List.filter_eq_append_iff.1 hys
        obtain ⟨m1, m2, e3, e4, e5, e6⟩ := List.filter_eq_cons_iff.1 e2
        have hy : y.1 = name := by simpa using e5
        refine ⟨l1 ++ m1, y.2, m2, by rw [e, e3, ← hy]; simp, fun x hx => ?_, h2⟩
        have := List.filter_eq_nil_iff.1 e6 x hx
        simpa using this
    · rintro ⟨pre, v, post, rfl, h1, h2⟩
      have : post.filter (·.1 = name) = [] := List.filter_eq_nil_iff.2 fun x hx => by simpa using h1 x hx
      rw [List.filter_append, List.filter_cons_of_pos (by simp), this]
      simpa using h2
  exact key _ _

example : (Parsed.debug ⟨[("--debug".toList, []), ("--debug".toList, "false".toList)], [], []⟩) = false := by decide +kernel

/-- **C48.** With `--debug`, the arguments for the program are those after the first of `remain`, and go builds the
    first. -/
theorem C48_debug_run (e : Env) (p : Parsed) (hd : p.debug = true) (prog : Str) (rest : List Str)
    (hr : p.remain = prog :: rest) : ∃ opts, (goCommand .run e p).1 = "build".toList :: opts ++ [prog] ∧
      (goCommand .run e p).2 = ((p.flags.filter (·.1 = "--prog-flag".toList)).map (·.2)) ++ rest := by
  show ∃ opts, (goCommand .run e p).1 = "build".toList :: opts ++ [prog] ∧ (goCommand .run e p).2 = p.all "--prog-flag" ++ rest
  unfold goCommand
  have c1 : (Cmd.run == Cmd.run) = true := rfl
  have c2 : (Cmd.run == Cmd.test) = false := rfl
  have c3 : (Cmd.run == Cmd.build) = false := rfl
  have c4 : (Cmd.run = Cmd.test) = False := eq_false (by decide)
  simp only [hd, hr, c1, c2, c3, c4, Bool.true_and, Bool.and_true, Bool.false_and, Bool.and_false, if_true, Bool.false_eq_true,
    if_false, false_and, and_false, List.append_nil, List.take_succ_cons, List.take_zero, List.drop_succ_cons, List.drop_zero,
    List.nil_append, List.append_assoc, List.cons_append]
  have ex : ∀ {y : List Str} (x : List Str), (∃ o, y = o ++ [prog]) → ∃ o, x ++ y = o ++ [prog] := by
    rintro _ x ⟨o, rfl⟩; exact ⟨x ++ o, by simp⟩
  have fin : ∀ {y : List Str}, (∃ o, y = o ++ [prog]) → ∃ o, "build".toList :: y = "build".toList :: (o ++ [prog]) ∧ True := by
    rintro _ ⟨o, rfl⟩; exact ⟨o, rfl, trivial⟩
  apply fin
  repeat' first | exact ⟨[], rfl⟩ | apply ex

/-- **C48.** The words of `XGO_FLAGS` come first. -/
theorem flagWords_word (w : Str) (hw : ∀ c ∈ w, c ≠ ' ' ∧ c ≠ '\t' ∧ c ≠ '\r' ∧ c ≠ '\n') (acc s : Str) :
    flagWords acc (w ++ s) = flagWords (acc ++ w) s := by
  induction w generalizing acc with
  | nil => simp
  | cons c w ih =>
    have := hw c (by simp)
    rw [List.cons_append, flagWords, if_neg (by simp [this.1, this.2.1, this.2.2.1, this.2.2.2]),
      ih (fun x hx => hw x (by simp [hx]))]
    simp

/-- **C48.** The flags in `XGO_FLAGS` are the words of its value, whatever space is between them, and come before the
    arguments of the command line; so a flag given again on the command line wins. -/
theorem C48_xgo_flags (ws : List (Str × Str)) (hw : ∀ w ∈ ws, w.2 ≠ [] ∧ (∀ c ∈ w.2, c ≠ ' ' ∧ c ≠ '\t' ∧ c ≠ '\r' ∧ c ≠ '\n') ∧
      w.1 ≠ [] ∧ ∀ c ∈ w.1, c = ' ' ∨ c = '\t' ∨ c = '\r' ∨ c = '\n') (cmd : Cmd) (hc : cmd ≠ .exec) (args : List Str) :
    actualArgs cmd (ws.flatMap fun w => w.1 ++ w.2) args = ws.map (·.2) ++ args := by
  have sp : ∀ (s t : Str), (∀ c ∈ s, c = ' ' ∨ c = '\t' ∨ c = '\r' ∨ c = '\n') → flagWords [] (s ++ t) = flagWords [] t := by
    intro s t hs
    induction s with
    | nil => rfl
    | cons c s ih =>
      rw [List.cons_append, flagWords, if_pos (hs c (by simp)), if_pos rfl, ih (fun x hx => hs x (by simp [hx]))]
  have key : ∀ (l : List (Str × Str)), (∀ w ∈ l, w.2 ≠ [] ∧ (∀ c ∈ w.2, c ≠ ' ' ∧ c ≠ '\t' ∧ c ≠ '\r' ∧ c ≠ '\n') ∧
      w.1 ≠ [] ∧ ∀ c ∈ w.1, c = ' ' ∨ c = '\t' ∨ c = '\r' ∨ c = '\n') →
      ∀ acc, acc ≠ [] → flagWords acc (l.flatMap fun w => w.1 ++ w.2) = acc :: l.map (·.2) := by
    intro l
    induction l with
    | nil => intro _ acc ha; simp [flagWords, ha]
    | cons w l ih =>
      intro hl acc ha
      obtain ⟨h1, h2, h3, h4⟩ := hl w (by simp)
      rw [List.flatMap_cons, List.append_assoc]
      cases hw1 : w.1 with
      | nil => exact absurd hw1 h3
      | cons c s =>
        rw [hw1] at h4
        rw [List.cons_append, flagWords, if_pos (h4 c (by simp)), if_neg ha, sp s _ (fun x hx => h4 x (by simp [hx])),
          flagWords_word _ h2, List.nil_append, ih (fun x hx => hl x (by simp [hx])) _ h1]
        rfl
  unfold actualArgs parseXgoFlags
  rw [if_neg hc]
  congr 1
  cases ws with
  | nil => rfl
  | cons w ws =>
    obtain ⟨h1, h2, h3, h4⟩ := hw w (by simp)
    rw [List.flatMap_cons, List.append_assoc, sp _ _ h4, flagWords_word _ h2, List.nil_append,
      key ws (fun x hx => hw x (by simp [hx])) _ h1]
    rfl

example : actualArgs .test " -v\t --trap-all ".toList ["./p".toList] = ["-v".toList, "--trap-all".toList, "./p".toList] := by
  decide +kernel

/-! ### The packages on the command line -/

theorem getPkgArgs_cons (arg : Str) (rest : List Str) : getPkgArgs (arg :: rest) =
    if !dash arg then arg :: rest
    else if arg = "-args".toList then []
    else if '=' ∈ arg then getPkgArgs rest
    else if (if "--".toList.isPrefixOf arg then arg.drop 1 else arg) ∈ zeroArg then getPkgArgs rest
      else match rest with
        | [] => []
        | _ :: rest' => getPkgArgs rest' := by
  rw [getPkgArgs.eq_def]
  rfl

/-- **C49**, in part: if go's flags without value are exactly those `getPkgArgs` knows, the result starts with the first
    package: everything from there on, nothing if there is none. Missing: other flags without value, and leaving out
    flags after the packages; both are false, see `C49_counterexample`. -/
theorem C49_packages_partial (pre : List Str) (h : GoFlags (· ∈ ["-a".toList, "-n".toList, "-race".toList, "-masan".toList, "-asan".toList,
      "-cover".toList, "-v".toList, "-work".toList, "-x".toList, "-linkshared".toList, "-buildvcs".toList, "-args".toList, "-c".toList,
      "-json".toList]) pre) (hargs : "-args".toList ∉ pre) :
    getPkgArgs pre = [] ∧ ∀ pkg rest, (∀ s, pkg ≠ '-' :: s) → getPkgArgs (pre ++ pkg :: rest) = pkg :: rest := by
  replace h : GoFlags (· ∈ zeroArg) pre := h
  have main : ∀ (tail : List Str), (∀ a t, tail = a :: t → ∀ s, a ≠ '-' :: s) → getPkgArgs (pre ++ tail) = tail := by
    intro tail ht
    have hd : ∀ s : Str, dash ('-' :: s) = true := fun s => rfl
    induction h with
    | nil =>
      cases tail with
      | nil => rw [List.nil_append]; rfl
      | cons a t =>
        have : dash a = false := by
          cases hb : dash a with
          | false => rfl
          | true => obtain ⟨s, hs⟩ := (dash_iff a).1 hb; exact absurd hs (ht a t rfl s)
        rw [List.nil_append, getPkgArgs_cons, this]; rfl
    | @eq s as he _ ih =>
      have h1 : ('-' :: s) ≠ "-args".toList := fun h => hargs (by rw [← h]; exact List.mem_cons_self ..)
      rw [List.cons_append, getPkgArgs_cons, hd, if_neg (by simp), if_neg h1, if_pos (List.mem_cons_of_mem _ he)]
      exact ih (fun h => hargs (List.mem_cons_of_mem _ h))
    | @alone s as he hs hz _ ih =>
      have h1 : ('-' :: s) ≠ "-args".toList := fun h => hargs (by rw [← h]; exact List.mem_cons_self ..)
      have h2 : "--".toList.isPrefixOf ('-' :: s) = false := by
        cases s with
        | nil => rfl
        | cons c t =>
          have hc : ('-' == c) = false := by
            cases hb : ('-' == c) with
            | false => rfl
            | true => exact absurd (by rw [eq_of_beq hb]) (hs t)
          show ('-' == '-' && ('-' == c && _)) = false
          rw [hc]; rfl
      have h3 : '=' ∉ '-' :: s := by simp [he]
      rw [List.cons_append, getPkgArgs_cons, hd, if_neg (by simp), if_neg h1, if_neg h3, h2, if_neg (c := false = true) (by simp), if_pos hz]
      exact ih (fun h => hargs (List.mem_cons_of_mem _ h))
    | @alone2 s as he hz _ ih =>
      have h1 : ('-' :: '-' :: s) ≠ "-args".toList := fun h => hargs (by rw [← h]; exact List.mem_cons_self ..)
      have h3 : '=' ∉ '-' :: '-' :: s := by simp [he]
      rw [List.cons_append, getPkgArgs_cons, hd, if_neg (by simp), if_neg h1, if_neg h3, if_pos (c := "--".toList.isPrefixOf ('-' :: '-' :: s) = true) (by rfl), if_pos (by exact hz)]
      exact ih (fun h => hargs (List.mem_cons_of_mem _ h))
    | @next s v as he hs hz _ ih =>
      have h1 : ('-' :: s) ≠ "-args".toList := fun h => hargs (by rw [← h]; exact List.mem_cons_self ..)
      have h2 : "--".toList.isPrefixOf ('-' :: s) = false := by
        cases s with
        | nil => rfl
        | cons c t =>
          have hc : ('-' == c) = false := by
            cases hb : ('-' == c) with
            | false => rfl
            | true => exact absurd (by rw [eq_of_beq hb]) (hs t)
          show ('-' == '-' && ('-' == c && _)) = false
          rw [hc]; rfl
      have h3 : '=' ∉ '-' :: s := by simp [he]
      rw [List.cons_append, List.cons_append, getPkgArgs_cons, hd, if_neg (by simp), if_neg h1, if_neg h3, h2, if_neg (c := false = true) (by simp), if_neg hz]
      exact ih (fun h => hargs (List.mem_cons_of_mem _ (List.mem_cons_of_mem _ h)))
    | @next2 s v as he hz _ ih =>
      have h1 : ('-' :: '-' :: s) ≠ "-args".toList := fun h => hargs (by rw [← h]; exact List.mem_cons_self ..)
      have h3 : '=' ∉ '-' :: '-' :: s := by simp [he]
      rw [List.cons_append, List.cons_append, getPkgArgs_cons, hd, if_neg (by simp), if_neg h1, if_neg h3, if_pos (c := "--".toList.isPrefixOf ('-' :: '-' :: s) = true) (by rfl), if_neg (by exact hz)]
      exact ih (fun h => hargs (List.mem_cons_of_mem _ (List.mem_cons_of_mem _ h)))
  refine ⟨by simpa using main [] (by simp), fun pkg rest hp => main (pkg :: rest) ?_⟩
  intro a t he; cases he; exact hp

/-- **C49** is false in general: `-short` (as `-failfast`, `-trimpath`, `-benchmem`, `-msan`, …) takes no value in go,
    but the package after it is lost; flags after the packages are returned as packages. -/
theorem C49_counterexample :
    getPkgArgs ["-short".toList, "./p".toList] = [] ∧
    getPkgArgs ["-msan".toList, "./p".toList, "./q".toList] = ["./q".toList] ∧
    getPkgArgs ["./p".toList, "-count".toList, "1".toList] = ["./p".toList, "-count".toList, "1".toList] := by decide +kernel

example : GoFlags (· ∈ zeroArg) ["--race".toList, "-count=1".toList, "-p".toList, "4".toList] ∧
    getPkgArgs ["--race".toList, "-count=1".toList, "-p".toList, "4".toList, "./p".toList] = ["./p".toList] := by
  refine ⟨?_, by decide +kernel⟩
  exact .alone2 (s := "race".toList) (by decide) (by decide +kernel) (.eq (s := "count=1".toList) (by decide)
    (.next (s := "p".toList) (by decide) (by intro t; simp) (by decide +kernel) .nil))

end Verif.Cmd
