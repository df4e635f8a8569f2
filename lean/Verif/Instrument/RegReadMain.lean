/-
**C89.** The registration code that xgo writes into a file registers each intercepted function, variable and interface of the file once, with
what is to be told about it.
-/
import Verif.Instrument.RegReadProps
import Verif.Instrument.FuncTrapProps

namespace Verif.Instrument.RegRead
open Spec
open Verif.Instrument.RegCode hiding Str bool
open Verif.Instrument.FuncTrap (dec name2)
open Verif.Instrument.CoverNotes (quote escape unquote unquote_quote)

/-! ### Names and numbers -/

/-- A character of a name. -/
def identChar (c : Char) : Bool := c.isAlphanum || c == '_' || decide (128 ≤ c.toNat)

theorem ident_char {s : Str} (h : Ident s) {c : Char} (hc : c ∈ s) : identChar c = true := by
  unfold identChar
  rcases h.2 c hc with h | h | h <;> simp [h]

theorem ident_not {s : Str} (h : Ident s) {c : Char} (hc : identChar c = false) : c ∉ s := by
  intro hm; rw [ident_char h hm] at hc; cases hc

theorem plain_ident {c : Char} (h : identChar c = true) : plain c = true := by
  have ne : ∀ p : Char, identChar p = false → c ≠ p := by rintro p hp rfl; rw [h] at hp; cases hp
  unfold plain
  simp [ne '"' (by decide), ne '(' (by decide), ne '[' (by decide), ne '{' (by decide), ne ')' (by decide), ne ']' (by decide), ne '}' (by decide)]

theorem good_ident {sep : Option Char} {s : Str} (h : Ident s) (hs : ∀ c, sep = some c → identChar c = false) : Good sep s := by
  apply good_word
  intro c hc
  refine ⟨plain_ident (ident_char h hc), fun he => ?_⟩
  have := hs c he
  rw [ident_char h hc] at this; cases this

theorem dec_ident (n : Nat) : Ident (dec n) := by
  refine ⟨Nat.toDigits_ne_nil, fun c hc => .inl ?_⟩
  have := Nat.isDigit_of_mem_toDigits (b := 10) (by decide) (by decide) hc
  simp [Char.isAlphanum, this]

theorem ident_app {a b : Str} (ha : ∀ c ∈ a, identChar c = true) (hb : Ident b) : Ident (a ++ b) := by
  refine ⟨by simp [hb.1], fun c hc => ?_⟩
  rcases List.mem_append.1 hc with h | h
  · have := ha c h
    unfold identChar at this
    simp only [Bool.or_eq_true, beq_iff_eq, decide_eq_true_eq] at this
    rcases this with (h | h) | h
    · exact .inl h
    · exact .inr (.inl h)
    · exact .inr (.inr h)
  · exact hb.2 c h

theorem number_dec (n : Nat) : number (dec n) = some n := by
  have h1 : dec n ≠ [] := Nat.toDigits_ne_nil
  have h2 : (dec n).all Char.isDigit = true := by
    rw [List.all_eq_true]
    exact fun c hc => Nat.isDigit_of_mem_toDigits (b := 10) (by decide) (by decide) hc
  rw [number, if_pos ⟨h1, h2⟩]
  congr 1
  have := Nat.ofDigitChars_ten_toDigits (n := n)
  rw [Nat.ofDigitChars_eq_foldl] at this
  exact this

theorem boolean_bool (b : Bool) : boolean (RegCode.bool b) = some b := by cases b <;> rfl

theorem string_quote {pr : Char → Bool} (hp : pr '\n' = false) (vars : List (Str × Str)) (s : Str) : string vars (quote pr s) = some s := by
  rw [string, if_pos (by rfl), unquote_quote hp]

/-! ### Pieces of text -/

theorem trimLeft_id {s : Str} (h : s.head? ≠ some ' ') : trimLeft s = s := by
  cases s with
  | nil => rfl
  | cons c s =>
    unfold trimLeft
    rw [List.dropWhile_cons_of_neg]
    simpa using h

theorem trim_id {s : Str} (h : s.head? ≠ some ' ') (h2 : s.getLast? ≠ some ' ') : trim s = s := by
  unfold trim
  rw [trimLeft_id h, trimLeft_id (by rw [List.head?_reverse]; exact h2), List.reverse_reverse]

theorem trim_space {s : Str} : trim (' ' :: s) = trim s := by
  unfold trim
  rw [show trimLeft (' ' :: s) = trimLeft s from List.dropWhile_cons_of_pos (by decide)]

theorem trim_free {s : Str} (h : ' ' ∉ s) : trim s = s :=
  trim_id (fun hh => h (List.mem_of_mem_head? hh)) (fun hh => h (List.mem_of_getLast? hh))

theorem trim_free_space {s : Str} (h : ' ' ∉ s) (hn : s ≠ []) : trim (s ++ [' ']) = s := by
  have hh : s.head? ≠ some ' ' := fun hh => h (List.mem_of_mem_head? hh)
  unfold trim
  have h1 : trimLeft (s ++ [' ']) = s ++ [' '] := trimLeft_id (by
    cases s with
    | nil => exact absurd rfl hn
    | cons c s => exact hh)
  rw [h1, List.reverse_append]
  show (trimLeft (' ' :: s.reverse)).reverse = s
  rw [show trimLeft (' ' :: s.reverse) = trimLeft s.reverse from List.dropWhile_cons_of_pos (by decide),
    trimLeft_id (by rw [List.head?_reverse]; exact fun hh => h (List.mem_of_getLast? hh)), List.reverse_reverse]

theorem cut_at {c : Char} {a b : Str} (h : c ∉ a) : cut c (a ++ c :: b) = some (a, b) := by
  have h1 : ∀ x ∈ a, decide (x ≠ c) = true := by
    intro x hx
    rw [decide_eq_true_eq]; rintro rfl; exact h hx
  rw [cut, if_pos (by simp), List.takeWhile_append_of_pos h1, List.dropWhile_append_of_pos h1]
  simp

theorem cut_none {c : Char} {a : Str} (h : c ∉ a) : cut c a = none := if_neg h

theorem after_at (p s : Str) : after p (p ++ s) = some s := by
  rw [after, if_pos (List.isPrefixOf_iff_prefix.2 (List.prefix_append p s)), List.drop_left' rfl]

theorem between_at (p q s : Str) : between p q (p ++ (s ++ q)) = some s := by
  rw [between, after_at, Option.bind_some, if_pos (List.isSuffixOf_iff_suffix.2 (List.suffix_append s q))]
  simp

theorem strings_quote {pr : Char → Bool} (hp : pr '\n' = false) (vars : List (Str × Str)) (l : List Str) :
    strings vars ("[]string{".toList ++ (commas (l.map (quote pr)) ++ "}".toList)) = some l := by
  rw [strings, between_at, Option.bind_some]
  have h := parts_commas (l.map (quote pr)) (by
    intro x hx
    obtain ⟨y, _, rfl⟩ := List.mem_map.1 hx
    exact ⟨good_quote (by decide) pr y, by rw [quote]; simp⟩)
  rw [h.1, Option.bind_some]
  clear h
  induction l with
  | nil => rfl
  | cons x l ih => rw [List.map_cons, List.mapM_cons, string_quote hp, ih]; rfl

/-! ### Literals -/

/-- A field of a literal as text. -/
def txt (kv : Str × Str) : Str := kv.1 ++ ':' :: kv.2

theorem mapM_cut : ∀ (kvs : List (Str × Str)), (∀ kv ∈ kvs, ':' ∉ kv.1) → (kvs.map txt).mapM (cut ':') = some kvs := by
  intro kvs
  induction kvs with
  | nil => intro _; rfl
  | cons kv kvs ih =>
    intro h
    rw [List.map_cons, List.mapM_cons, txt, cut_at (h kv List.mem_cons_self), ih fun x hx => h x (List.mem_cons_of_mem _ hx)]
    rfl

/-- The fields of a literal that can be read: the key is a name, and the brackets of the value match. -/
def Field (kv : Str × Str) : Prop := Ident kv.1 ∧ Good (some ',') kv.2

theorem good_txt {kv : Str × Str} (h : Field kv) : Good (some ',') (txt kv) := by
  rw [txt]
  exact good_app (good_ident h.1 (by intro c hc; cases hc; decide)) (good_cons (by decide) (by decide) h.2)

theorem literal_read (p : Prog) {T : Str} (hT : Ident T) {fields : List Str} (hl : p.types.lookup T = some fields) {kvs : List (Str × Str)}
    (h : ∀ kv ∈ kvs, Field kv) (hk : (kvs.map (·.1)).all (fun k => fields.contains k) = true) (hn : (kvs.map (·.1)).Nodup) :
    literal p ('&' :: (T ++ '{' :: (commas (kvs.map txt) ++ ['}']))) = kvs.foldlM (fun e kv => field p.vars e kv.1 (trim kv.2)) {} := by
  unfold literal
  rw [show '&' :: (T ++ '{' :: (commas (kvs.map txt) ++ ['}'])) = "&".toList ++ (T ++ '{' :: (commas (kvs.map txt) ++ ['}'])) from rfl,
    after_at, Option.bind_some, cut_at (ident_not hT (by decide)), Option.bind_some, hl, Option.bind_some]
  rw [if_neg (by simp)]
  simp only [List.dropLast_concat]
  rw [(parts_commas (kvs.map txt) (by
      intro x hx
      obtain ⟨kv, hkv, rfl⟩ := List.mem_map.1 hx
      exact ⟨good_txt (h kv hkv), by rw [txt]; simp⟩)).1, Option.bind_some,
    mapM_cut kvs (fun kv hkv => ident_not (h kv hkv).1 (by decide)), Option.bind_some, if_pos ⟨hk, hn⟩]

theorem commas_append : ∀ {l m : List Str}, l ≠ [] → m ≠ [] → commas (l ++ m) = commas l ++ ',' :: commas m := by
  intro l
  induction l with
  | nil => intro m h; exact absurd rfl h
  | cons x l ih =>
    intro m _ hm
    cases l with
    | nil =>
      cases m with
      | nil => exact absurd rfl hm
      | cons y m => rfl
    | cons y l =>
      have := ih (m := m) (by simp) hm
      rw [List.cons_append] at this
      have e1 : ∀ r : List Str, commas (x :: y :: r) = x ++ ',' :: commas (y :: r) := fun r => rfl
      rw [List.cons_append, List.cons_append, e1, this, e1, List.append_assoc]
      rfl

/-- The fields that every literal has. -/
def baseKvs (pr : Char → Bool) (n : Names) (fileVar : Str) (kind : Nat) (name identity : Str) (line : Nat) : List (Str × Str) :=
  [("Kind".toList, dec kind), ("Pkg".toList, n.pkgVar), ("Name".toList, quote pr name), ("IdentityName".toList, quote pr identity),
    ("File".toList, fileVar), ("Line".toList, dec line)]

/-- The field for the standard library. -/
def stdKvs (stdlib : Bool) : List (Str × Str) := if stdlib then [("Stdlib".toList, "true".toList)] else []

theorem makeLiteral_eq (pr : Char → Bool) (n : Names) (fileVar : Str) (kind : Nat) (name identity : Str) (line : Nat) (stdlib : Bool)
    (kvs : List (Str × Str)) :
    makeLiteral pr n fileVar kind name identity line stdlib (kvs.map txt) =
      '&' :: (n.infoType ++ '{' :: (commas ((baseKvs pr n fileVar kind name identity line ++ kvs ++ stdKvs stdlib).map txt) ++ ['}'])) := by
  have hb : commas ((baseKvs pr n fileVar kind name identity line).map txt) = "Kind:".toList ++ dec kind ++ ",Pkg:".toList ++ n.pkgVar ++ ",Name:".toList ++
      quote pr name ++ ",IdentityName:".toList ++ quote pr identity ++ ",File:".toList ++ fileVar ++ ",Line:".toList ++ dec line := by
    rw [show ",Pkg:".toList = ',' :: "Pkg:".toList from rfl, show ",Name:".toList = ',' :: "Name:".toList from rfl,
      show ",IdentityName:".toList = ',' :: "IdentityName:".toList from rfl, show ",File:".toList = ',' :: "File:".toList from rfl,
      show ",Line:".toList = ',' :: "Line:".toList from rfl, show "Kind:".toList = "Kind".toList ++ [':'] from rfl,
      show "Pkg:".toList = "Pkg".toList ++ [':'] from rfl, show "Name:".toList = "Name".toList ++ [':'] from rfl,
      show "IdentityName:".toList = "IdentityName".toList ++ [':'] from rfl, show "File:".toList = "File".toList ++ [':'] from rfl,
      show "Line:".toList = "Line".toList ++ [':'] from rfl]
    simp only [baseKvs, txt, commas, List.map_cons, List.map_nil, List.append_assoc, List.cons_append, List.nil_append]
  have hbn : (baseKvs pr n fileVar kind name identity line).map txt ≠ [] := by simp [baseKvs]
  have hs : commas ((baseKvs pr n fileVar kind name identity line ++ kvs ++ stdKvs stdlib).map txt) =
      commas ((baseKvs pr n fileVar kind name identity line).map txt) ++
      ((if kvs.map txt = [] then [] else ',' :: commas (kvs.map txt)) ++ (if stdlib then ",Stdlib:true".toList else [])) := by
    rw [List.map_append, List.map_append]
    by_cases hk : kvs.map txt = []
    · rw [hk, if_pos rfl, List.append_nil]
      cases stdlib
      · rw [show (stdKvs false).map txt = [] from rfl, List.append_nil]; exact (List.append_nil _).symm
      · rw [commas_append hbn (by simp [stdKvs])]; rfl
    · rw [if_neg hk]
      cases stdlib
      · rw [show (stdKvs false).map txt = [] from rfl, List.append_nil, commas_append hbn hk]; exact congrArg _ (List.append_nil _).symm
      · rw [commas_append (by simp [hbn]) (by simp [stdKvs]), commas_append hbn hk, List.append_assoc]; rfl
  rw [hs, hb, makeLiteral, show "{Kind:".toList = '{' :: "Kind:".toList from rfl]
  simp only [List.append_assoc, List.cons_append, List.nil_append]

/-- The names of the fields of `infoFields`. -/
def infoKeys : List Str := infoFields.map fun f => f.takeWhile (· ≠ ' ')

/-- The variables with strings that literals refer to. -/
structure Env (vars : List (Str × Str)) (pkgVar fileVar pkg file : Str) : Prop where
  pkgName : Ident pkgVar
  fileName : Ident fileVar
  pkgVal : string vars pkgVar = some pkg
  fileVal : string vars fileVar = some file

theorem trim_ident {s : Str} (h : Ident s) : trim s = s := trim_free (ident_not h (by decide))

theorem trim_quote (pr : Char → Bool) (s : Str) : trim (quote pr s) = quote pr s :=
  trim_id (by rw [quote]; simp) (by rw [quote, List.getLast?_concat]; decide)

theorem base_set {pr : Char → Bool} (hp : pr '\n' = false) {vars : List (Str × Str)} {n : Names} {fileVar pkg file : Str}
    (h : Env vars n.pkgVar fileVar pkg file) (kind : Nat) (name identity : Str) (line : Nat) :
    (baseKvs pr n fileVar kind name identity line).foldlM (fun e kv => field vars e kv.1 (trim kv.2)) {} =
      some { kind := kind, pkg := pkg, name := name, identity := identity, file := file, line := line } := by
  unfold baseKvs
  simp only [List.foldlM_cons, List.foldlM_nil, trim_ident (dec_ident _), trim_ident h.pkgName, trim_ident h.fileName, trim_quote]
  unfold field
  simp only [number_dec, string_quote hp, h.pkgVal, h.fileVal]
  rfl

theorem base_field {pr : Char → Bool} {vars : List (Str × Str)} {n : Names} {fileVar pkg file : Str}
    (h : Env vars n.pkgVar fileVar pkg file) (kind : Nat) (name identity : Str) (line : Nat) :
    ∀ kv ∈ baseKvs pr n fileVar kind name identity line, Field kv := by
  have hs : ∀ c, some ',' = some c → identChar c = false := by intro c hc; cases hc; decide
  intro kv hkv
  have hid : Ident kv.1 := by
    have : kv.1 ∈ (baseKvs pr n fileVar kind name identity line).map (·.1) := List.mem_map.2 ⟨kv, hkv, rfl⟩
    have h2 : ∀ k ∈ ["Kind".toList, "Pkg".toList, "Name".toList, "IdentityName".toList, "File".toList, "Line".toList], k ≠ [] ∧ ∀ c ∈ k, identChar c = true := by decide
    have h3 := h2 kv.1 this
    have := ident_app (b := dec 0) h3.2 (dec_ident 0)
    exact ⟨h3.1, fun c hc => this.2 c (List.mem_append_left _ hc)⟩
  refine ⟨hid, ?_⟩
  rcases List.mem_cons.1 hkv with rfl | hkv
  · exact good_ident (dec_ident _) hs
  rcases List.mem_cons.1 hkv with rfl | hkv
  · exact good_ident h.pkgName hs
  rcases List.mem_cons.1 hkv with rfl | hkv
  · exact good_quote (by decide) _ _
  rcases List.mem_cons.1 hkv with rfl | hkv
  · exact good_quote (by decide) _ _
  rcases List.mem_cons.1 hkv with rfl | hkv
  · exact good_ident h.fileName hs
  rcases List.mem_cons.1 hkv with rfl | hkv
  · exact good_ident (dec_ident _) hs
  cases hkv

/-! ### What a literal says -/

/-- A list of strings as text. -/
def strs (pr : Char → Bool) (l : List Str) : Str := "[]string{".toList ++ (commas (l.map (quote pr)) ++ "}".toList)

theorem strs_eq (pr : Char → Bool) (l : List Str) :
    strs pr l = '[' :: ([] ++ [']']) ++ (['s', 't', 'r', 'i', 'n', 'g'] ++ '{' :: (commas (l.map (quote pr)) ++ ['}'])) := by
  have h1 : "[]string{".toList = ['[', ']', 's', 't', 'r', 'i', 'n', 'g', '{'] := by decide
  have h2 : "}".toList = ['}'] := by decide
  unfold strs
  generalize commas (l.map (quote pr)) = x
  rw [h1, h2]
  rfl

theorem trim_strs (pr : Char → Bool) (l : List Str) : trim (strs pr l) = strs pr l := by
  rw [strs_eq]
  generalize commas (l.map (quote pr)) = x
  refine trim_id (by simp) ?_
  rw [show ∀ a b : Str, a ++ (b ++ '{' :: (x ++ ['}'])) = (a ++ (b ++ '{' :: x)) ++ ['}'] from fun a b => by simp, List.getLast?_concat]
  decide

theorem good_strs (pr : Char → Bool) (l : List Str) : Good (some ',') (strs pr l) := by
  rw [strs_eq]
  refine good_app (good_bracket (.inr (.inl ⟨rfl, rfl⟩)) (by decide) good_nil) (good_app (good_word (by decide)) ?_)
  exact good_bracket (.inr (.inr ⟨rfl, rfl⟩)) (by decide) (good_commas _ (by
    intro x hx
    obtain ⟨y, _, rfl⟩ := List.mem_map.1 hx
    exact good_quote (by decide) pr y))

theorem strings_strs {pr : Char → Bool} (hp : pr '\n' = false) (vars : List (Str × Str)) (l : List Str) : strings vars (strs pr l) = some l :=
  strings_quote hp vars l

/-- The further fields of a variable. -/
def varKvs (pr : Char → Bool) (v : RegCode.Named) : List (Str × Str) :=
  [("Var".toList, '&' :: v.name), ("ResNames".toList, strs pr [v.name])]

/-- The further fields of an interface. -/
def intfKvs (pr : Char → Bool) (t : RegCode.Named) : List (Str × Str) :=
  [("Interface".toList, "true".toList), ("RecvType".toList, ' ' :: quote pr t.name)]

/-- The further fields of a function. -/
def funcKvs (pr : Char → Bool) (f : Func) : List (Str × Str) :=
  (match f.recv with
    | none => []
    | some r => [("RecvPtr".toList, RegCode.bool r.ptr), ("RecvType".toList, ' ' :: quote pr r.typeName), ("RecvName".toList, quote pr r.name)]) ++
  (if f.recvGeneric || f.genericParams then [("Generic".toList, "true".toList)] else []) ++
  (if f.params = [] then [] else [("ArgNames".toList, strs pr f.params)]) ++
  (if f.results = [] then [] else [("ResNames".toList, strs pr f.results)])

theorem funcExtra_eq (pr : Char → Bool) (f : Func) : funcExtra pr f = (funcKvs pr f).map txt := by
  unfold funcExtra funcKvs
  rw [List.map_append, List.map_append, List.map_append]
  have h1 : ∀ l, "ArgNames:[]string{".toList ++ commas (l.map (quote pr)) ++ ['}'] = txt ("ArgNames".toList, strs pr l) := by
    intro l
    rw [List.append_assoc]
    rfl
  have h2 : ∀ l, "ResNames:[]string{".toList ++ commas (l.map (quote pr)) ++ ['}'] = txt ("ResNames".toList, strs pr l) := by
    intro l
    rw [List.append_assoc]
    rfl
  rw [h1, h2]
  congr 1
  · congr 1
    · congr 1
      · cases f.recv <;> rfl
      · split <;> rfl
    · split <;> rfl
  · split <;> rfl

theorem key_field {k v : Str} (hk : k ≠ [] ∧ ∀ c ∈ k, identChar c = true) (hv : Good (some ',') v) : Field (k, v) := by
  have := ident_app (b := dec 0) hk.2 (dec_ident 0)
  exact ⟨⟨hk.1, fun c hc => this.2 c (List.mem_append_left _ hc)⟩, hv⟩

theorem std_field (b : Bool) : ∀ kv ∈ stdKvs b, Field kv := by
  intro kv h
  cases b
  · cases h
  · rcases List.mem_cons.1 h with rfl | h
    · exact key_field (by decide) (good_word (by decide))
    · cases h

theorem std_set (vars : List (Str × Str)) (b : Bool) (e : Entry) (he : e.stdlib = false) :
    (stdKvs b).foldlM (fun e kv => field vars e kv.1 (trim kv.2)) e = some { e with stdlib := b } := by
  cases b
  · show some e = _
    rw [← he]
  · rfl

/-- A literal says what its fields say. -/
theorem literal_says {pr : Char → Bool} (hp : pr '\n' = false) {p : Prog} {n : Names} {fileVar pkg file : Str} (hT : Ident n.infoType)
    (hl : p.types.lookup n.infoType = some infoKeys) (h : Env p.vars n.pkgVar fileVar pkg file) (kind : Nat) (name identity : Str)
    (line : Nat) (stdlib : Bool) (kvs : List (Str × Str)) (hf : ∀ kv ∈ kvs, Field kv)
    (ks : List Str) (hks : kvs.map (·.1) = ks)
    (hk : (["Kind".toList, "Pkg".toList, "Name".toList, "IdentityName".toList, "File".toList, "Line".toList] ++ ks ++ ["Stdlib".toList]).Nodup)
    (hk2 : ks.all (fun k => infoKeys.contains k) = true) {e : Entry}
    (he : kvs.foldlM (fun e kv => field p.vars e kv.1 (trim kv.2))
      { kind := kind, pkg := pkg, name := name, identity := identity, file := file, line := line } = some e) (hs : e.stdlib = false) :
    literal p (makeLiteral pr n fileVar kind name identity line stdlib (kvs.map txt)) = some { e with stdlib := stdlib } := by
  subst hks
  rw [makeLiteral_eq, literal_read p hT hl]
  · rw [List.foldlM_append, List.foldlM_append, base_set hp h]
    show (kvs.foldlM (fun e kv => field p.vars e kv.1 (trim kv.2)) _ >>= _) = _
    rw [he]
    exact std_set _ _ _ hs
  · intro kv hkv
    rcases List.mem_append.1 hkv with hkv | hkv
    · rcases List.mem_append.1 hkv with hkv | hkv
      · exact base_field h _ _ _ _ kv hkv
      · exact hf kv hkv
    · exact std_field _ kv hkv
  · rw [List.map_append, List.map_append, List.all_append, List.all_append, hk2,
      show ((baseKvs pr n fileVar kind name identity line).map (·.1)).all (fun k => infoKeys.contains k) = true from
        (by decide +kernel : (["Kind".toList, "Pkg".toList, "Name".toList, "IdentityName".toList, "File".toList, "Line".toList].all
          fun k => infoKeys.contains k) = true)]
    cases stdlib <;> decide +kernel
  · rw [List.map_append, List.map_append]
    refine List.Nodup.sublist ?_ hk
    refine List.Sublist.append (List.Sublist.append (List.Sublist.refl _) (List.Sublist.refl _)) ?_
    cases stdlib
    · exact List.nil_sublist _
    · exact List.Sublist.refl _

/-! ### Fields -/

theorem field_recvPtr (vars : List (Str × Str)) (e : Entry) (value : Str) :
    field vars e "RecvPtr".toList value = (boolean value).map fun b => { e with recvPtr := b } := by
  unfold field
  repeat rw [if_neg (by decide)]
  rw [if_pos rfl]

theorem field_recvType (vars : List (Str × Str)) (e : Entry) (value : Str) :
    field vars e "RecvType".toList value = (string vars value).map fun b => { e with recvType := b } := by
  unfold field
  repeat rw [if_neg (by decide)]
  rw [if_pos rfl]

theorem field_recvName (vars : List (Str × Str)) (e : Entry) (value : Str) :
    field vars e "RecvName".toList value = (string vars value).map fun b => { e with recvName := b } := by
  unfold field
  repeat rw [if_neg (by decide)]
  rw [if_pos rfl]

theorem field_generic (vars : List (Str × Str)) (e : Entry) (value : Str) :
    field vars e "Generic".toList value = (boolean value).map fun b => { e with generic := b } := by
  unfold field
  repeat rw [if_neg (by decide)]
  rw [if_pos rfl]

theorem field_interface (vars : List (Str × Str)) (e : Entry) (value : Str) :
    field vars e "Interface".toList value = (boolean value).map fun b => { e with interface := b } := by
  unfold field
  repeat rw [if_neg (by decide)]
  rw [if_pos rfl]

theorem field_args (vars : List (Str × Str)) (e : Entry) (value : Str) :
    field vars e "ArgNames".toList value = (strings vars value).map fun b => { e with args := b } := by
  unfold field
  repeat rw [if_neg (by decide)]
  rw [if_pos rfl]

theorem field_results (vars : List (Str × Str)) (e : Entry) (value : Str) :
    field vars e "ResNames".toList value = (strings vars value).map fun b => { e with results := b } := by
  unfold field
  repeat rw [if_neg (by decide)]
  rw [if_pos rfl]

theorem field_var (vars : List (Str × Str)) (e : Entry) (value : Str) :
    field vars e "Var".toList value = (after "&".toList value).map fun b => { e with var := some b } := by
  unfold field
  repeat rw [if_neg (by decide)]
  rw [if_pos rfl]

/-- What a function is before its value is set. -/
def func0 (pkg file : Str) (stdlib : Bool) (f : Func) : Entry := { funcEntry pkg file stdlib f with func := none }

theorem var_field (pr : Char → Bool) (v : RegCode.Named) (hv : Ident v.name) : ∀ kv ∈ varKvs pr v, Field kv := by
  intro kv hkv
  rcases List.mem_cons.1 hkv with rfl | hkv
  · exact key_field (by decide) (good_cons (by decide) (by decide) (good_ident hv (by intro c hc; cases hc; decide)))
  · rcases List.mem_cons.1 hkv with rfl | hkv
    · exact key_field (by decide) (good_strs _ _)
    · cases hkv

theorem intf_field (pr : Char → Bool) (t : RegCode.Named) : ∀ kv ∈ intfKvs pr t, Field kv := by
  intro kv hkv
  rcases List.mem_cons.1 hkv with rfl | hkv
  · exact key_field (by decide) (good_word (by decide))
  · rcases List.mem_cons.1 hkv with rfl | hkv
    · exact key_field (by decide) (good_cons (by decide) (by decide) (good_quote (by decide) _ _))
    · cases hkv

theorem var_literal {pr : Char → Bool} (hp : pr '\n' = false) {p : Prog} {n : Names} {fileVar pkg file : Str} (hT : Ident n.infoType)
    (hl : p.types.lookup n.infoType = some infoKeys) (h : Env p.vars n.pkgVar fileVar pkg file) (stdlib : Bool) (v : RegCode.Named)
    (hv : Ident v.name) :
    literal p (makeLiteral pr n fileVar 1 v.name v.name v.line stdlib
      ["Var:&".toList ++ v.name, "ResNames:[]string{".toList ++ quote pr v.name ++ ['}']]) = some (varEntry pkg file stdlib v) := by
  rw [show ["Var:&".toList ++ v.name, "ResNames:[]string{".toList ++ quote pr v.name ++ ['}']] = (varKvs pr v).map txt by
    rw [List.append_assoc]; rfl]
  have hf := var_field pr v hv
  have htr : trim ('&' :: v.name) = '&' :: v.name := trim_free (by
    intro hm
    rcases List.mem_cons.1 hm with h | h
    · cases h
    · exact ident_not hv (by decide) h)
  rw [literal_says hp hT hl h 1 v.name v.name v.line stdlib (varKvs pr v) hf ["Var".toList, "ResNames".toList] rfl (by decide) (by decide)
    (e := { kind := 1, pkg := pkg, name := v.name, identity := v.name, file := file, line := v.line, var := some v.name, results := [v.name] }) ?_ rfl]
  · rfl
  · unfold varKvs
    simp only [List.foldlM_cons, List.foldlM_nil, htr, trim_strs, field_var, field_results, strings_strs hp]
    rw [show ∀ x : Str, '&' :: x = "&".toList ++ x from fun x => rfl, after_at]
    rfl

theorem intf_literal {pr : Char → Bool} (hp : pr '\n' = false) {p : Prog} {n : Names} {fileVar pkg file : Str} (hT : Ident n.infoType)
    (hl : p.types.lookup n.infoType = some infoKeys) (h : Env p.vars n.pkgVar fileVar pkg file) (stdlib : Bool) (t : RegCode.Named) :
    literal p (makeLiteral pr n fileVar 0 t.name t.name t.line stdlib
      ["Interface:true".toList, "RecvType: ".toList ++ quote pr t.name]) = some (intfEntry pkg file stdlib t) := by
  rw [show ["Interface:true".toList, "RecvType: ".toList ++ quote pr t.name] = (intfKvs pr t).map txt from rfl]
  have hf := intf_field pr t
  rw [literal_says hp hT hl h 0 t.name t.name t.line stdlib (intfKvs pr t) hf ["Interface".toList, "RecvType".toList] rfl (by decide) (by decide)
    (e := { pkg := pkg, name := t.name, identity := t.name, file := file, line := t.line, interface := true, recvType := t.name }) ?_ rfl]
  · rfl
  · unfold intfKvs
    simp only [List.foldlM_cons, List.foldlM_nil, trim_space, trim_quote, field_interface, field_recvType, string_quote hp]
    rfl

/-- The receiver part of the fields of a function. -/
def recvKvs (pr : Char → Bool) : Option Recv → List (Str × Str)
  | none => []
  | some r => [("RecvPtr".toList, RegCode.bool r.ptr), ("RecvType".toList, ' ' :: quote pr r.typeName), ("RecvName".toList, quote pr r.name)]

def optKvs (pr : Char → Bool) (key : Str) (l : List Str) : List (Str × Str) := if l = [] then [] else [(key, strs pr l)]

def genKvs (g : Bool) : List (Str × Str) := if g then [("Generic".toList, "true".toList)] else []

theorem funcKvs_eq (pr : Char → Bool) (f : Func) : funcKvs pr f =
    recvKvs pr f.recv ++ genKvs (f.recvGeneric || f.genericParams) ++ optKvs pr "ArgNames".toList f.params ++ optKvs pr "ResNames".toList f.results := by
  unfold funcKvs recvKvs genKvs optKvs
  cases f.recv <;> rfl

theorem trim_bool (b : Bool) : trim (RegCode.bool b) = RegCode.bool b := by cases b <;> rfl

theorem func_field (pr : Char → Bool) (f : Func) : ∀ kv ∈ funcKvs pr f, Field kv := by
  rw [funcKvs_eq]
  intro kv h
  rcases List.mem_append.1 h with h | h
  · rcases List.mem_append.1 h with h | h
    · rcases List.mem_append.1 h with h | h
      · cases hr : f.recv with
        | none => rw [hr] at h; cases h
        | some r =>
          rw [hr] at h
          rcases List.mem_cons.1 h with rfl | h
          · exact key_field (by decide) (by cases r.ptr <;> exact good_word (by decide))
          rcases List.mem_cons.1 h with rfl | h
          · exact key_field (by decide) (good_cons (by decide) (by decide) (good_quote (by decide) _ _))
          rcases List.mem_cons.1 h with rfl | h
          · exact key_field (by decide) (good_quote (by decide) _ _)
          cases h
      · unfold genKvs at h
        split at h
        · rcases List.mem_cons.1 h with rfl | h
          · exact key_field (by decide) (good_word (by decide))
          · cases h
        · cases h
    · unfold optKvs at h
      split at h
      · cases h
      · rcases List.mem_cons.1 h with rfl | h
        · exact key_field (by decide) (good_strs _ _)
        · cases h
  · unfold optKvs at h
    split at h
    · cases h
    · rcases List.mem_cons.1 h with rfl | h
      · exact key_field (by decide) (good_strs _ _)
      · cases h

/-- The keys of the further fields of a function. -/
def funcKeys (recv gen args res : Bool) : List Str :=
  (if recv then ["RecvPtr".toList, "RecvType".toList, "RecvName".toList] else []) ++ (if gen then ["Generic".toList] else []) ++
    (if args then ["ArgNames".toList] else []) ++ (if res then ["ResNames".toList] else [])

theorem func_keys (pr : Char → Bool) (f : Func) : (funcKvs pr f).map (·.1) =
    funcKeys f.recv.isSome (f.recvGeneric || f.genericParams) (!f.params.isEmpty) (!f.results.isEmpty) := by
  rw [funcKvs_eq]
  unfold recvKvs genKvs optKvs funcKeys
  rw [List.map_append, List.map_append, List.map_append]
  congr 1
  · congr 1
    · congr 1
      · cases f.recv <;> rfl
      · split <;> rfl
    · cases f.params <;> rfl
  · cases f.results <;> rfl

theorem funcKeys_nodup : ∀ a b c d : Bool, (["Kind".toList, "Pkg".toList, "Name".toList, "IdentityName".toList, "File".toList, "Line".toList] ++
    funcKeys a b c d ++ ["Stdlib".toList]).Nodup := by decide +kernel

theorem funcKeys_known : ∀ a b c d : Bool, (funcKeys a b c d).all (fun k => infoKeys.contains k) = true := by decide +kernel

theorem func_literal {pr : Char → Bool} (hp : pr '\n' = false) {p : Prog} {n : Names} {fileVar pkg file : Str} (hT : Ident n.infoType)
    (hl : p.types.lookup n.infoType = some infoKeys) (h : Env p.vars n.pkgVar fileVar pkg file) (stdlib : Bool) (f : Func) :
    literal p (makeLiteral pr n fileVar 0 f.name f.identity f.line stdlib (funcExtra pr f)) = some (func0 pkg file stdlib f) := by
  rw [funcExtra_eq]
  rw [literal_says hp hT hl h 0 f.name f.identity f.line stdlib (funcKvs pr f) (func_field pr f) _ (func_keys pr f) (funcKeys_nodup _ _ _ _)
    (funcKeys_known _ _ _ _) (e := { func0 pkg file stdlib f with stdlib := false }) ?_ rfl]
  · rfl
  · rw [funcKvs_eq, List.foldlM_append, List.foldlM_append, List.foldlM_append]
    have hrecv : ∀ e : Entry, e.recvPtr = false → e.recvType = [] → e.recvName = [] →
        (recvKvs pr f.recv).foldlM (fun e kv => field p.vars e kv.1 (trim kv.2)) e = some { e with
          recvPtr := match f.recv with
            | none => false
            | some r => r.ptr
          recvType := match f.recv with
            | none => []
            | some r => r.typeName
          recvName := match f.recv with
            | none => []
            | some r => r.name } := by
      intro e h1 h2 h3
      cases f.recv with
      | none => cases e; simp only at h1 h2 h3; subst h1; subst h2; subst h3; rfl
      | some r =>
        unfold recvKvs
        simp only [List.foldlM_cons, List.foldlM_nil, trim_space, trim_quote, trim_bool, field_recvPtr, field_recvType, field_recvName,
          string_quote hp, boolean_bool]
        rfl
    have hgen : ∀ (g : Bool) (e : Entry), e.generic = false →
        (genKvs g).foldlM (fun e kv => field p.vars e kv.1 (trim kv.2)) e = some { e with generic := g } := by
      intro g e h1
      cases g with
      | false => show some e = _; rw [← h1]
      | true => rfl
    have hargs : ∀ (e : Entry), e.args = [] →
        (optKvs pr "ArgNames".toList f.params).foldlM (fun e kv => field p.vars e kv.1 (trim kv.2)) e = some { e with args := f.params } := by
      intro e h1
      unfold optKvs
      split
      · rename_i h2; rw [h2]; show some e = _; rw [← h1]
      · simp only [List.foldlM_cons, List.foldlM_nil, trim_strs, field_args, strings_strs hp]; rfl
    have hres : ∀ (e : Entry), e.results = [] →
        (optKvs pr "ResNames".toList f.results).foldlM (fun e kv => field p.vars e kv.1 (trim kv.2)) e = some { e with results := f.results } := by
      intro e h1
      unfold optKvs
      split
      · rename_i h2; rw [h2]; show some e = _; rw [← h1]
      · simp only [List.foldlM_cons, List.foldlM_nil, trim_strs, field_results, strings_strs hp]; rfl
    rw [hrecv _ rfl rfl rfl]
    simp only [Option.bind_eq_bind, Option.bind_some]
    rw [hgen _ _ rfl]
    simp only [Option.bind_some]
    rw [hargs _ rfl]
    simp only [Option.bind_some]
    rw [hres _ rfl]
    rfl

end Verif.Instrument.RegRead
