import Verif.Cmd.RuntimeCopySpec
import Verif.Instrument.PatchUpdateProps
/-
C71: the local copy of the runtime. Lines of Go files, and the linking of core/version.go and flags.go.
-/
namespace Verif.Cmd.RuntimeCopy
open Verif.Text Verif.Instrument.PatchText Spec

/-- No occurrence in a literal. -/
macro "noinfix" : tactic => `(tactic| (rw [← cut_none]; decide +kernel))

/-! ### Occurrences -/

theorem infix_sep {w a b : Str} {z : Char} (hz : z ∉ w) (h : w <:+: a ++ z :: b) : w <:+: a ∨ w <:+: b := by
  rcases infix_append_cases h with h | h | ⟨x, y, hx, hy, he, hs, hp⟩
  · exact Or.inl h
  · rcases List.infix_cons_iff.1 h with h | h
    · cases w with
      | nil => exact Or.inl List.nil_infix
      | cons c w => exact absurd (by simp [(List.cons_prefix_cons.1 h).1]) hz
    · exact Or.inr h
  · cases y with
    | nil => exact absurd rfl hy
    | cons c y => exact absurd (by rw [he, (List.cons_prefix_cons.1 hp).1]; simp) hz

theorem infix_last {w a b : Str} {c : Char} (hl : w.getLast? = some c) (hc : c ∉ b) (h : w <:+: a ++ b) : w <:+: a := by
  have hw : w ≠ [] := by rintro rfl; cases hl
  have hm : ∀ y, y ≠ [] → y <:+ w → c ∈ y := by
    intro y hy ⟨x, hx⟩
    rw [← hx, List.getLast?_append] at hl
    cases h' : y.getLast? with
    | none => exact absurd (List.getLast?_eq_none_iff.1 h') hy
    | some e =>
      rw [h'] at hl
      have : e = c := by simpa using hl
      exact this ▸ List.mem_of_getLast? h'
  rcases infix_append_cases h with h | h | ⟨x, y, hx, hy, he, hs, hp⟩
  · exact h
  · exact absurd (h.subset (hm w hw (List.suffix_refl _))) hc
  · exact absurd (hp.subset (hm y hy ⟨x, he.symm⟩)) hc

theorem unlines_append (a b : List Str) : unlines (a ++ b) = unlines a ++ unlines b := by simp [unlines]

theorem unlines_cons (l : Str) (b : List Str) : unlines (l :: b) = l ++ '\n' :: unlines b := by simp [unlines]

theorem infix_unlines {w : Str} {L : List Str} (hw : w ≠ []) (hn : '\n' ∉ w) (h : w <:+: unlines L) : ∃ l ∈ L, w <:+: l := by
  induction L with
  | nil => exact absurd (List.infix_nil.1 h) hw
  | cons l L ih =>
    rw [unlines_cons] at h
    rcases infix_sep hn h with h | h
    · exact ⟨l, by simp, h⟩
    · obtain ⟨l', hl', h'⟩ := ih h
      exact ⟨l', by simp [hl'], h'⟩

theorem not_infix_unlines {w : Str} {L : List Str} (hw : w ≠ []) (hn : '\n' ∉ w) (h : ∀ l ∈ L, ¬ w <:+: l) : ¬ w <:+: unlines L :=
  fun h' => let ⟨l, hl, hi⟩ := infix_unlines hw hn h'; h l hl hi

/-- The text `a` ends with a character that does not occur in `sep`. -/
theorem notBefore_of_last {sep a : Str} {z : Char} (hz : z ∉ sep) (hs : sep ≠ []) (h : ¬ sep <:+: a) : NotBefore sep (a ++ [z]) := by
  unfold NotBefore
  rw [List.dropLast_append_of_ne_nil hs, List.append_assoc]
  intro hc
  rcases infix_sep hz hc with hc | hc
  · exact h hc
  · have := hc.length_le
    have : 0 < sep.length := List.length_pos_iff.2 hs
    simp at *
    omega

theorem cut_newline {v rest : Str} (hv : '\n' ∉ v) : cut ['\n'] (v ++ '\n' :: rest) = some (v, rest) := by
  have : NotBefore ['\n'] v := notBefore_of_head (by simp) (fun h => hv (h.subset (by simp)))
  simpa using cut_append (b := rest) (by simp) this

/-- A declaration: `const …`; its first character occurs nowhere else in it. -/
structure Pat (pat : Str) : Prop where
  head : ∃ c cs, pat = c :: cs ∧ c ∉ cs
  line : '\n' ∉ pat

theorem Pat.ne {pat : Str} (h : Pat pat) : pat ≠ [] := by obtain ⟨c, cs, rfl, _⟩ := h.head; simp

theorem Pat.notBefore {pat a : Str} (hp : Pat pat) (h : ¬ pat <:+: a) : NotBefore pat a := by
  obtain ⟨c, cs, rfl, hc⟩ := hp.head
  exact notBefore_of_head hc h

theorem cut_line {pat rest : Str} {L1 L2 : List Str} (hp : Pat pat) (h1 : ∀ l ∈ L1, ¬ pat <:+: l) :
    cut pat (unlines (L1 ++ (pat ++ rest) :: L2)) = some (unlines L1, rest ++ '\n' :: unlines L2) := by
  have := cut_append (b := rest ++ '\n' :: unlines L2) hp.ne (hp.notBefore (not_infix_unlines hp.ne hp.line h1))
  rw [← this, unlines_append, unlines_cons]
  simp

theorem replaceByLine_line {pat rest r : Str} {L1 L2 : List Str} (hp : Pat pat) (h1 : ∀ l ∈ L1, ¬ pat <:+: l) (hr : '\n' ∉ rest) :
    replaceByLine (unlines (L1 ++ (pat ++ rest) :: L2)) pat r = unlines (L1 ++ r :: L2) := by
  unfold replaceByLine
  rw [cut_line hp h1]
  simp only [cut_newline hr]
  rw [unlines_append, unlines_cons]
  simp

/-- Replace a line that begins with `pat`. -/
def setLine (pat new : Str) (line : Str) : Str := if pat.isPrefixOf line then new else line

theorem setLine_pos {pat new l : Str} (h : pat <+: l) : setLine pat new l = new := by
  unfold setLine; rw [if_pos (List.isPrefixOf_iff_prefix.2 h)]

theorem setLine_neg {pat new l : Str} (h : ¬ pat <+: l) : setLine pat new l = l := by
  unfold setLine; rw [if_neg (fun h' => h (List.isPrefixOf_iff_prefix.1 h'))]

theorem map_setLine {pat new : Str} {L : List Str} (h : ∀ l ∈ L, ¬ pat <:+: l) : L.map (setLine pat new) = L := by
  conv => rhs; rw [← List.map_id L]
  exact List.map_congr_left fun l hl => setLine_neg fun hp => h l hl hp.isInfix

theorem replaceByLine_one {pat r : Str} {L : List Str} (hp : Pat pat) (h : One pat L) (hn : ∀ l ∈ L, '\n' ∉ l) :
    replaceByLine (unlines L) pat r = unlines (L.map (setLine pat r)) := by
  obtain ⟨L1, rest, L2, rfl, h1, -, h2⟩ := h
  have hr : '\n' ∉ rest := fun hm => hn (pat ++ rest) (by simp) (by simp [hm])
  rw [replaceByLine_line hp h1 hr, List.map_append, List.map_cons, map_setLine h1, map_setLine h2,
    setLine_pos (List.prefix_append _ _)]

/-- Other lines stay what they are. -/
theorem one_map {pat : Str} {L : List Str} {g : Str → Str} (h : One pat L)
    (h1 : ∀ rest, ¬ pat <:+: rest → ∃ rest', g (pat ++ rest) = pat ++ rest' ∧ ¬ pat <:+: rest')
    (h2 : ∀ l, ¬ pat <:+: l → ¬ pat <:+: g l) : One pat (L.map g) := by
  obtain ⟨L1, rest, L2, rfl, ha, hb, hc⟩ := h
  obtain ⟨rest', he, hr⟩ := h1 rest hb
  refine ⟨L1.map g, rest', L2.map g, by simp [he], ?_, hr, ?_⟩
  · intro l hl; obtain ⟨l', hl', rfl⟩ := List.mem_map.1 hl; exact h2 _ (ha _ hl')
  · intro l hl; obtain ⟨l', hl', rfl⟩ := List.mem_map.1 hl; exact h2 _ (hc _ hl')

theorem prefix_comparable {p q l : Str} (h1 : p <+: l) (h2 : q <+: l) : p <+: q ∨ q <+: p := by
  rcases Nat.le_total p.length q.length with h | h
  · exact Or.inl (List.prefix_of_prefix_length_le h1 h2 h)
  · exact Or.inr (List.prefix_of_prefix_length_le h2 h1 h)

/-- Two declarations that do not begin with each other. -/
def Apart (p q : Str) : Prop := p.isPrefixOf q = false ∧ q.isPrefixOf p = false

theorem Apart.not_prefix {p q rest : Str} (h : Apart p q) : ¬ q <+: p ++ rest := by
  intro hq
  rcases prefix_comparable hq (List.prefix_append p rest) with h' | h'
  · have := List.isPrefixOf_iff_prefix.2 h'; rw [h.2] at this; cases this
  · have := List.isPrefixOf_iff_prefix.2 h'; rw [h.1] at this; cases this

theorem one_setLine {pat pat' new : Str} {L : List Str} (h : One pat L) (ha : Apart pat pat') (hn : ¬ pat <:+: new) :
    One pat (L.map (setLine pat' new)) := by
  refine one_map h (fun rest hr => ⟨rest, setLine_neg ha.not_prefix, hr⟩) fun l hl => ?_
  unfold setLine
  split
  · exact hn
  · exact hl

theorem lines_setLine {pat new : Str} {L : List Str} (h : ∀ l ∈ L, '\n' ∉ l) (hn : '\n' ∉ new) :
    ∀ l ∈ L.map (setLine pat new), '\n' ∉ l := by
  intro l hl
  obtain ⟨l', hl', rfl⟩ := List.mem_map.1 hl
  unfold setLine
  split
  · exact hn
  · exact h _ hl'

/-! ### core/version.go -/

theorem pat_version : Pat "const XGO_VERSION = ".toList := ⟨⟨'c', _, rfl, by decide⟩, by decide⟩
theorem pat_revision : Pat "const XGO_REVISION = ".toList := ⟨⟨'c', _, rfl, by decide⟩, by decide⟩
theorem pat_number : Pat "const XGO_NUMBER = ".toList := ⟨⟨'c', _, rfl, by decide⟩, by decide⟩
theorem pat_core : Pat "const VERSION =".toList := ⟨⟨'c', _, rfl, by decide⟩, by decide⟩
theorem pat_check : Pat "func checkVersion() error {".toList := ⟨⟨'f', _, rfl, by decide⟩, by decide⟩
theorem pat_collect : Pat "const COLLECT_TEST_TRACE = ".toList := ⟨⟨'c', _, rfl, by decide⟩, by decide⟩
theorem pat_dir : Pat "const COLLECT_TEST_TRACE_DIR = ".toList := ⟨⟨'c', _, rfl, by decide⟩, by decide⟩
theorem pat_race : Pat "const XGO_RACE_SAFE = ".toList := ⟨⟨'c', _, rfl, by decide⟩, by decide⟩

/-- What the replacement lines of core/version.go have in common. -/
theorem not_infix_quoted {w a v : Str} {c : Char} (hl : w.getLast? = some c) (hc : c.isAlphanum = false ∧ c ∉ ['.', '-', '+', '_', '"'])
    (hv : Plain v) (h : ¬ w <:+: a) : ¬ w <:+: a ++ ['"'] ++ v ++ ['"'] := by
  intro hi
  rw [List.append_assoc, List.append_assoc] at hi
  refine h (infix_last hl ?_ hi)
  intro hm
  simp only [List.mem_append, List.mem_cons, List.not_mem_nil, or_false] at hm hc
  rcases hm with rfl | hm | rfl
  · exact hc.2 (by simp)
  · rcases hv c hm with h' | h'
    · rw [hc.1] at h'; cases h'
    · simp only [List.mem_cons, List.not_mem_nil, or_false] at h'
      rcases h' with rfl | rfl | rfl | rfl <;> simp at hc
  · exact hc.2 (by simp)

theorem not_infix_digits {w a : Str} {c : Char} {n : Nat} (hl : w.getLast? = some c) (hc : Support.isDig c = false)
    (h : ¬ w <:+: a) : ¬ w <:+: a ++ Nat.toDigits 10 n := by
  intro hi
  refine h (infix_last hl (fun hm => ?_) hi)
  rw [Support.digit_toDigits hm] at hc
  cases hc

/-- The three new lines. -/
def lineV (x : Xgo) : Str := "const XGO_VERSION = \"".toList ++ x.version ++ "\"".toList
def lineR (x : Xgo) : Str := "const XGO_REVISION = \"".toList ++ x.revision ++ "\"".toList
def lineN (x : Xgo) : Str := "const XGO_NUMBER = ".toList ++ Nat.toDigits 10 x.number

theorem not_infix_lineV {x : Xgo} {w : Str} {c : Char} (hx : Plain x.version) (hl : w.getLast? = some c)
    (hc : c.isAlphanum = false ∧ c ∉ ['.', '-', '+', '_', '"']) (h : ¬ w <:+: "const XGO_VERSION = ".toList) : ¬ w <:+: lineV x :=
  not_infix_quoted (a := "const XGO_VERSION = ".toList) hl hc hx h

theorem not_infix_lineR {x : Xgo} {w : Str} {c : Char} (hx : Plain x.revision) (hl : w.getLast? = some c)
    (hc : c.isAlphanum = false ∧ c ∉ ['.', '-', '+', '_', '"']) (h : ¬ w <:+: "const XGO_REVISION = ".toList) : ¬ w <:+: lineR x :=
  not_infix_quoted (a := "const XGO_REVISION = ".toList) hl hc hx h

theorem not_infix_lineN {x : Xgo} {w : Str} {c : Char} (hl : w.getLast? = some c) (hc : Support.isDig c = false)
    (h : ¬ w <:+: "const XGO_NUMBER = ".toList) : ¬ w <:+: lineN x := not_infix_digits hl hc h

/-- The marked text. -/
def bm : Str := "/*<begin bypass_version_check>*/".toList
def em : Str := "/*<end bypass_version_check>*/".toList
def ret1 : Str := "if true { return nil; ".toList
def ret : Str := ret1 ++ ['}']
def bypass : Str := bm ++ ret ++ em
def anchor1 : Str := "func checkVersion() error ".toList
def anchor : Str := anchor1 ++ ['{']

theorem pat_anchor : Pat anchor := ⟨⟨'f', _, rfl, by decide +kernel⟩, by decide +kernel⟩

theorem bypassVersionCheck_eq (code : Str) : bypassVersionCheck code = updateContent code bm em [anchor] 0 .after ret := by
  have h1 : "func checkVersion() error {".toList = anchor := by decide +kernel
  have h2 : "if true { return nil; }".toList = ret := by decide +kernel
  unfold bypassVersionCheck
  rw [h1, h2]
  rfl

theorem bm_ne : bm ≠ [] := by decide +kernel
theorem em_ne : em ≠ [] := by decide +kernel
theorem ret_ne : ret ≠ [] := by decide +kernel
theorem bm_line : '\n' ∉ bm := by decide +kernel
theorem em_line : '\n' ∉ em := by decide +kernel
theorem bm_brace : '{' ∉ bm := by decide +kernel
theorem em_brace : '{' ∉ em := by decide +kernel
theorem em_brace2 : '}' ∉ em := by decide +kernel
theorem bm_last : bm.getLast? = some '/' := by decide +kernel
theorem em_last : em.getLast? = some '/' := by decide +kernel
theorem anchor_slash : '/' ∉ anchor1 := by decide +kernel

/-- A line other than that of `checkVersion`. -/
def Other (l : Str) : Prop := ¬ anchor <:+: l ∧ ¬ bm <:+: l ∧ ¬ em <:+: l

/-- Lines that can be linked, for the first time or again. -/
structure Linkable (core : Str) (L : List Str) : Prop where
  lines : ∀ l ∈ L, '\n' ∉ l
  v : One "const XGO_VERSION = ".toList L
  r : One "const XGO_REVISION = ".toList L
  n : One "const XGO_NUMBER = ".toList L
  c : One "const VERSION =".toList L
  core : "const VERSION = \"".toList ++ core ++ "\"".toList ∈ L
  check : ∃ L1 s L2, L = L1 ++ (anchor ++ s) :: L2 ∧ (s = [] ∨ s = bypass) ∧ (∀ l ∈ L1, Other l) ∧ ∀ l ∈ L2, Other l

/-- The lines, with the constants filled in. -/
def filled (x : Xgo) (l : Str) : Str :=
  setLine "const XGO_NUMBER = ".toList (lineN x) (setLine "const XGO_REVISION = ".toList (lineR x)
    (setLine "const XGO_VERSION = ".toList (lineV x) l))

theorem filled_map (x : Xgo) (L : List Str) : L.map (filled x) =
    ((L.map (setLine "const XGO_VERSION = ".toList (lineV x))).map (setLine "const XGO_REVISION = ".toList (lineR x))).map
      (setLine "const XGO_NUMBER = ".toList (lineN x)) := by
  simp [filled, Function.comp_def]

theorem not_mem3 {c : Char} {a b d : Str} (h1 : c ∉ a) (h2 : c ∉ b) (h3 : c ∉ d) : c ∉ a ++ b ++ d := by
  simp [h1, h2, h3]

theorem replaced {x : Xgo} {core : Str} {L : List Str} (h : Linkable core L) (hv : Plain x.version) (hr : Plain x.revision) :
    replaceActualXgoVersion (unlines L) x.version x.revision x.number = unlines (L.map (filled x)) := by
  have nl : ∀ {s : Str}, Plain s → '\n' ∉ s := by
    intro s hs hm
    have := hs _ hm
    revert this; decide
  have n1 : '\n' ∉ lineV x := not_mem3 (by decide +kernel) (nl hv) (by decide +kernel)
  have n2 : '\n' ∉ lineR x := not_mem3 (by decide +kernel) (nl hr) (by decide +kernel)
  have e1 := replaceByLine_one (r := lineV x) pat_version h.v h.lines
  have l1 := lines_setLine (pat := "const XGO_VERSION = ".toList) h.lines n1
  have o2 := one_setLine (pat' := "const XGO_VERSION = ".toList) (new := lineV x) h.r (by unfold Apart; decide +kernel)
    (not_infix_lineV hv (c := ' ') (by decide +kernel) (by decide +kernel) (by noinfix))
  have e2 := replaceByLine_one (r := lineR x) pat_revision o2 l1
  have l2 := lines_setLine (pat := "const XGO_REVISION = ".toList) l1 n2
  have o3 := one_setLine (pat' := "const XGO_VERSION = ".toList) (new := lineV x) h.n (by unfold Apart; decide +kernel)
    (not_infix_lineV hv (c := ' ') (by decide +kernel) (by decide +kernel) (by noinfix))
  have o4 := one_setLine (pat' := "const XGO_REVISION = ".toList) (new := lineR x) o3 (by unfold Apart; decide +kernel)
    (not_infix_lineR hr (c := ' ') (by decide +kernel) (by decide +kernel) (by noinfix))
  have e3 := replaceByLine_one (r := lineN x) pat_number o4 l2
  rw [filled_map, ← e3, ← e2, ← e1]
  rfl

theorem filled_other {x : Xgo} {l : Str} (hv : Plain x.version) (hr : Plain x.revision) (h : Other l) : Other (filled x l) := by
  have step : ∀ {p n l}, Other n → Other l → Other (setLine p n l) := by
    intro p n l hn hl; unfold setLine; split
    · exact hn
    · exact hl
  refine step ?_ (step ?_ (step ?_ h))
  · exact ⟨not_infix_lineN (c := '{') (by decide +kernel) (by decide +kernel) (by noinfix), not_infix_lineN (c := '/') (by decide +kernel) (by decide +kernel) (by noinfix),
      not_infix_lineN (c := '/') (by decide +kernel) (by decide +kernel) (by noinfix)⟩
  · exact ⟨not_infix_lineR hr (c := '{') (by decide +kernel) (by decide +kernel) (by noinfix), not_infix_lineR hr (c := '/') (by decide +kernel) (by decide +kernel) (by noinfix),
      not_infix_lineR hr (c := '/') (by decide +kernel) (by decide +kernel) (by noinfix)⟩
  · exact ⟨not_infix_lineV hv (c := '{') (by decide +kernel) (by decide +kernel) (by noinfix), not_infix_lineV hv (c := '/') (by decide +kernel) (by decide +kernel) (by noinfix),
      not_infix_lineV hv (c := '/') (by decide +kernel) (by decide +kernel) (by noinfix)⟩

theorem filled_anchor (x : Xgo) (s : Str) : filled x (anchor ++ s) = anchor ++ s := by
  have : ∀ {p n}, Apart anchor p → setLine p n (anchor ++ s) = anchor ++ s := fun h => setLine_neg h.not_prefix
  unfold filled
  rw [this (by unfold Apart; decide +kernel), this (by unfold Apart; decide +kernel), this (by unfold Apart; decide +kernel)]

/-- The edit of `checkVersion`, made once or again. -/
theorem bypassed {L1 L2 : List Str} {s : Str} (hs : s = [] ∨ s = bypass) (h1 : ∀ l ∈ L1, Other l) (h2 : ∀ l ∈ L2, Other l) :
    bypassVersionCheck (unlines (L1 ++ (anchor ++ s) :: L2)) = some (unlines (L1 ++ (anchor ++ bypass) :: L2)) := by
  have na : ∀ L : List Str, (∀ l ∈ L, Other l) → ¬ anchor <:+: unlines L :=
    fun L h => not_infix_unlines pat_anchor.ne pat_anchor.line fun l hl => (h l hl).1
  have nb : ∀ L : List Str, (∀ l ∈ L, Other l) → ¬ bm <:+: unlines L :=
    fun L h => not_infix_unlines bm_ne bm_line fun l hl => (h l hl).2.1
  have ne : ∀ L : List Str, (∀ l ∈ L, Other l) → ¬ em <:+: unlines L :=
    fun L h => not_infix_unlines em_ne em_line fun l hl => (h l hl).2.2
  have hnab : ¬ anchor <:+: bypass := by noinfix
  have hnem : ¬ em <:+: bm ++ ret1 := by noinfix
  have hrest : ¬ anchor <:+: s ++ '\n' :: unlines L2 := by
    intro h
    rcases infix_sep pat_anchor.line h with h | h
    · rcases hs with rfl | rfl
      · exact absurd (List.infix_nil.1 h) pat_anchor.ne
      · exact hnab h
    · exact na _ h2 h
  have hnb : NotBefore anchor (unlines L1) := pat_anchor.notBefore (na _ h1)
  have htext : unlines (L1 ++ (anchor ++ s) :: L2) = unlines L1 ++ anchor ++ (s ++ '\n' :: unlines L2) := by
    rw [unlines_append, unlines_cons]; simp
  have hocc : ¬ Occurs (s ++ '\n' :: unlines L2) [anchor] := by
    rintro ⟨parts, rest, he, hp⟩
    obtain ⟨⟨u, a⟩, rfl⟩ : ∃ p, parts = [p] := by
      cases parts with
      | nil => cases hp
      | cons p ps => cases ps with
        | nil => exact ⟨p, rfl⟩
        | cons q qs => simp at hp
    have ha : a = anchor := by simpa using hp
    subst ha
    exact hrest (by rw [he]; exact ⟨u, rest, by simp [joined]⟩)
  have han : Anchored (unlines (L1 ++ (anchor ++ s) :: L2)) [anchor] ([] ++ (unlines L1, anchor) :: [])
      (s ++ '\n' :: unlines L2) := by
    refine ⟨by rw [htext]; simp [joined], rfl, by simp, ?_⟩
    intro x hx
    have : x = (unlines L1, anchor) := by simpa using hx
    subst this
    exact ⟨pat_anchor.ne, hnb⟩
  rw [bypassVersionCheck_eq]
  have hbefore : ¬ bm <:+: unlines L1 ++ anchor1 := fun h => nb _ h1 (infix_last bm_last anchor_slash h)
  have hbefore' : ¬ em <:+: unlines L1 ++ anchor1 := fun h => ne _ h1 (infix_last em_last anchor_slash h)
  rcases hs with rfl | rfl
  · have hb : ¬ bm <:+: unlines (L1 ++ (anchor ++ []) :: L2) := by
      have e : unlines (L1 ++ (anchor ++ []) :: L2) = (unlines L1 ++ anchor1) ++ '{' :: ([] ++ '\n' :: unlines L2) := by
        rw [htext]; simp [anchor]
      rw [e]
      intro h
      rcases infix_sep bm_brace h with h | h
      · exact hbefore h
      · rcases infix_sep bm_line h with h | h
        · exact bm_ne (List.infix_nil.1 h)
        · exact nb _ h2 h
    have := (C26_insert _ _ _ _ _ _ _ han hocc bm em ret bm_ne em_ne hb ret_ne).2.1
    simp only [List.length_nil] at this
    refine Eq.trans this ?_
    rw [unlines_append, unlines_cons]
    simp [joined, bypass]
  · have hb : NotBefore bm (unlines L1 ++ anchor) := by
      have : unlines L1 ++ anchor = (unlines L1 ++ anchor1) ++ ['{'] := by simp [anchor]
      rw [this]
      exact notBefore_of_last bm_brace bm_ne hbefore
    have he : NotBefore em (unlines L1 ++ anchor ++ bm ++ ret) := by
      have e : unlines L1 ++ anchor ++ bm ++ ret = (unlines L1 ++ anchor1 ++ '{' :: (bm ++ ret1)) ++ ['}'] := by
        simp [anchor, ret]
      rw [e]
      refine notBefore_of_last em_brace2 em_ne fun h => ?_
      rcases infix_sep em_brace h with h | h
      · exact hbefore' h
      · exact hnem h
    have := C26_again _ _ _ _ _ _ _ (unlines L1 ++ anchor) ('\n' :: unlines L2) ret
      ret bm em han hocc (by rw [htext]; simp [bypass]) bm_ne em_ne hb he (by noinfix) ret_ne .after
    simp only [List.length_nil] at this
    refine Eq.trans this ?_
    rw [unlines_append, unlines_cons]
    simp [bypass]

/-! ### What the lines of core/version.go become -/

def pv : Str := "const XGO_VERSION = ".toList
def pr : Str := "const XGO_REVISION = ".toList
def pn : Str := "const XGO_NUMBER = ".toList
def pc : Str := "const VERSION =".toList

theorem apart_vr : Apart pv pr := by unfold Apart; decide +kernel
theorem apart_vn : Apart pv pn := by unfold Apart; decide +kernel
theorem apart_rn : Apart pr pn := by unfold Apart; decide +kernel
theorem apart_va : Apart anchor pv := by unfold Apart; decide +kernel
theorem apart_ra : Apart anchor pr := by unfold Apart; decide +kernel
theorem apart_na : Apart anchor pn := by unfold Apart; decide +kernel
theorem apart_cv : Apart pc pv := by unfold Apart; decide +kernel
theorem apart_cr : Apart pc pr := by unfold Apart; decide +kernel
theorem apart_cn : Apart pc pn := by unfold Apart; decide +kernel

theorem Apart.symm {p q : Str} (h : Apart p q) : Apart q p := ⟨h.2, h.1⟩

theorem Apart.not_both {p q l : Str} (h : Apart p q) (hp : p <+: l) : ¬ q <+: l := by
  obtain ⟨t, rfl⟩ := hp
  exact h.not_prefix

theorem lineV_eq (x : Xgo) : lineV x = pv ++ ('"' :: x.version ++ ['"']) := by
  have : "const XGO_VERSION = \"".toList = pv ++ ['"'] := by decide +kernel
  unfold lineV
  rw [this, List.append_assoc, List.append_assoc]
  rfl

theorem lineR_eq (x : Xgo) : lineR x = pr ++ ('"' :: x.revision ++ ['"']) := by
  have : "const XGO_REVISION = \"".toList = pr ++ ['"'] := by decide +kernel
  unfold lineR
  rw [this, List.append_assoc, List.append_assoc]
  rfl

theorem versionLine_eq (x : Xgo) (l : Str) : versionLine x l =
    if pv.isPrefixOf l then lineV x else if pr.isPrefixOf l then lineR x else if pn.isPrefixOf l then lineN x
    else if l = anchor then anchor ++ bypass else l := by
  have h1 : "func checkVersion() error {".toList = anchor := by decide +kernel
  have h2 : "func checkVersion() error {/*<begin bypass_version_check>*/if true { return nil; }/*<end bypass_version_check>*/".toList =
    anchor ++ bypass := by decide +kernel
  unfold versionLine
  rw [h1, h2]
  rfl

section
variable (x : Xgo) {l : Str}

theorem vl_v (h : pv <+: l) : versionLine x l = lineV x := by
  rw [versionLine_eq, if_pos (List.isPrefixOf_iff_prefix.2 h)]

theorem vl_r (h : pr <+: l) : versionLine x l = lineR x := by
  rw [versionLine_eq, if_neg (fun h' => apart_vr.symm.not_both h (List.isPrefixOf_iff_prefix.1 h')),
    if_pos (List.isPrefixOf_iff_prefix.2 h)]

theorem vl_n (h : pn <+: l) : versionLine x l = lineN x := by
  rw [versionLine_eq, if_neg (fun h' => apart_vn.symm.not_both h (List.isPrefixOf_iff_prefix.1 h')),
    if_neg (fun h' => apart_rn.symm.not_both h (List.isPrefixOf_iff_prefix.1 h')), if_pos (List.isPrefixOf_iff_prefix.2 h)]

theorem vl_skip (h1 : ¬ pv <+: l) (h2 : ¬ pr <+: l) (h3 : ¬ pn <+: l) :
    versionLine x l = if l = anchor then anchor ++ bypass else l := by
  rw [versionLine_eq, if_neg (fun h' => h1 (List.isPrefixOf_iff_prefix.1 h')),
    if_neg (fun h' => h2 (List.isPrefixOf_iff_prefix.1 h')), if_neg (fun h' => h3 (List.isPrefixOf_iff_prefix.1 h'))]

theorem vl_anchor {s : Str} (hs : s = [] ∨ s = bypass) : versionLine x (anchor ++ s) = anchor ++ bypass := by
  rw [vl_skip x apart_va.not_prefix apart_ra.not_prefix apart_na.not_prefix]
  rcases hs with rfl | rfl
  · simp
  · rw [if_neg]
    have : bypass ≠ [] := by decide +kernel
    simpa using this

theorem vl_cases (l : Str) : pv <+: l ∨ pr <+: l ∨ pn <+: l ∨ l = anchor ∨ (versionLine x l = l ∧ ¬ pv <+: l ∧ ¬ pr <+: l ∧ ¬ pn <+: l ∧
    l ≠ anchor) := by
  by_cases h1 : pv <+: l
  · exact Or.inl h1
  by_cases h2 : pr <+: l
  · exact Or.inr (Or.inl h2)
  by_cases h3 : pn <+: l
  · exact Or.inr (Or.inr (Or.inl h3))
  by_cases h4 : l = anchor
  · exact Or.inr (Or.inr (Or.inr (Or.inl h4)))
  refine Or.inr (Or.inr (Or.inr (Or.inr ⟨?_, h1, h2, h3, h4⟩)))
  rw [vl_skip x h1 h2 h3, if_neg h4]

/-- Linking again. -/
theorem versionLine_twice (y : Xgo) (l : Str) : versionLine x (versionLine y l) = versionLine x l := by
  rcases vl_cases y l with h | h | h | rfl | ⟨h, -⟩
  · rw [vl_v y h, vl_v x h, vl_v x]
    rw [lineV_eq]; exact List.prefix_append _ _
  · rw [vl_r y h, vl_r x h, vl_r x]
    rw [lineR_eq]; exact List.prefix_append _ _
  · rw [vl_n y h, vl_n x h, vl_n x]
    exact List.prefix_append _ _
  · have h1 := vl_anchor y (s := []) (Or.inl rfl)
    have h2 := vl_anchor x (s := []) (Or.inl rfl)
    rw [List.append_nil] at h1 h2
    rw [h1, h2, vl_anchor x (Or.inr rfl)]
  · rw [h]

/-- On lines other than that of `checkVersion`, only the constants are filled in. -/
theorem versionLine_filled (h : l ≠ anchor) : versionLine x l = filled x l := by
  unfold filled
  have e : ∀ {p n l : Str}, p <+: l → setLine p n l = n := fun h => setLine_pos h
  change _ = setLine pn _ (setLine pr _ (setLine pv _ l))
  rcases vl_cases x l with h1 | h1 | h1 | h1 | ⟨h1, h2, h3, h4, -⟩
  · rw [vl_v x h1, setLine_pos h1, lineV_eq, setLine_neg apart_vr.not_prefix, setLine_neg apart_vn.not_prefix]
  · rw [vl_r x h1, setLine_neg (apart_vr.symm.not_both h1), setLine_pos h1, lineR_eq, setLine_neg apart_rn.not_prefix]
  · rw [vl_n x h1, setLine_neg (apart_vn.symm.not_both h1), setLine_neg (apart_rn.symm.not_both h1), setLine_pos h1]
  · exact absurd h1 h
  · rw [h1, setLine_neg h2, setLine_neg h3, setLine_neg h4]

end

/-! ### Linking core/version.go -/

theorem mem_one {pat line : Str} {L1 L2 : List Str} {rest : Str} (h1 : ∀ l ∈ L1, ¬ pat <:+: l) (h2 : ∀ l ∈ L2, ¬ pat <:+: l)
    (hm : line ∈ L1 ++ (pat ++ rest) :: L2) (hp : pat <:+: line) : line = pat ++ rest := by
  rcases List.mem_append.1 hm with h | h
  · exact absurd hp (h1 _ h)
  · rcases List.mem_cons.1 h with h | h
    · exact h
    · exact absurd hp (h2 _ h)

theorem core_line (core : Str) : "const VERSION = \"".toList ++ core ++ "\"".toList = pc ++ (' ' :: '"' :: core ++ ['"']) := by
  have : "const VERSION = \"".toList = pc ++ [' ', '"'] := by decide +kernel
  rw [this, List.append_assoc, List.append_assoc]
  rfl

theorem parse_core {core : Str} {L : List Str} (h : Linkable core L) (hc : core ≠ [] ∧ '"' ∉ core ∧ '\\' ∉ core) :
    parseCoreVersion (unlines L) = some core := by
  obtain ⟨L1, rest, L2, rfl, h1, -, h2⟩ := h.c
  have hl := mem_one h1 h2 h.core (by rw [core_line]; exact (List.prefix_append _ _).isInfix)
  rw [core_line] at hl
  have hr : rest = ' ' :: '"' :: core ++ ['"'] := (List.append_cancel_left hl).symm
  have hn : '\n' ∉ rest := fun hm => h.lines (pc ++ rest) (List.mem_append_right _ List.mem_cons_self) (List.mem_append_right _ hm)
  unfold parseCoreVersion
  rw [cut_line pat_core h1]
  simp only [cut_newline hn]
  have ht : trim rest = '"' :: core ++ ['"'] := by
    rw [hr]
    simp [trim, List.dropWhile]
  rw [ht]
  have hu : unquote ('"' :: core ++ ['"']) = some core := by
    simp [unquote, hc.2]
  rw [hu]
  simp [hc.1]

/-- What is needed of the executable and of the version of its runtime. -/
structure CoreOk (core : Str) : Prop where
  plain : core ≠ [] ∧ '"' ∉ core ∧ '\\' ∉ core
  new : ¬ "1.0.".toList <+: core ∧ 0 ≤ Support.Semver.compareSemVer ('v' :: core) "v1.1.4".toList

theorem link_version {x : Xgo} {core : Str} {L : List Str} (h : Linkable core L) (hc : CoreOk core) (hv : Plain x.version)
    (hr : Plain x.revision) :
    linkVersion (unlines L) x.version x.revision x.number = some (unlines (L.map (versionLine x))) := by
  unfold linkVersion
  rw [parse_core h hc.plain]
  have hd : isDeprecated core = false := by
    rw [Bool.eq_false_iff]
    exact fun h' => hc.new.1 (List.isPrefixOf_iff_prefix.1 h')
  simp only [hd, Bool.false_eq_true, if_false]
  unfold checkBypassVersionCheck
  rw [if_pos hc.new.2, replaced h hv hr]
  obtain ⟨L1, s, L2, rfl, hs, h1, h2⟩ := h.check
  have ne : ∀ l, Other l → l ≠ anchor := fun l hl e => hl.1 (by rw [e]; exact List.infix_refl _)
  have e1 : L1.map (versionLine x) = L1.map (filled x) := List.map_congr_left fun l hl => versionLine_filled x (ne l (h1 l hl))
  have e2 : L2.map (versionLine x) = L2.map (filled x) := List.map_congr_left fun l hl => versionLine_filled x (ne l (h2 l hl))
  have hm : ∀ M : List Str, (∀ l ∈ M, Other l) → ∀ l ∈ M.map (filled x), Other l := by
    intro M hM l hl
    obtain ⟨l', hl', rfl⟩ := List.mem_map.1 hl
    exact filled_other hv hr (hM l' hl')
  simp only [List.map_append, List.map_cons, filled_anchor, vl_anchor x hs, e1, e2]
  exact bypassed hs (hm _ h1) (hm _ h2)

/-- A declaration stays the only one of its kind. -/
theorem versionLine_avoid {x : Xgo} {w l : Str} {c : Char} (hvp : Plain x.version) (hrp : Plain x.revision)
    (hl : w.getLast? = some c) (hc : c.isAlphanum = false ∧ c ∉ ['.', '-', '+', '_', '"']) (hd : Support.isDig c = false)
    (hv : w = pv ∨ ¬ w <:+: pv) (hr : w = pr ∨ ¬ w <:+: pr) (hn : w = pn ∨ ¬ w <:+: pn)
    (ha : l = anchor → ¬ w <:+: anchor ++ bypass) (h : ¬ w <:+: l) : ¬ w <:+: versionLine x l := by
  rcases vl_cases x l with h1 | h1 | h1 | rfl | ⟨h1, -⟩
  · rw [vl_v x h1]
    rcases hv with rfl | hv
    · exact absurd h1.isInfix h
    · exact not_infix_lineV hvp hl hc hv
  · rw [vl_r x h1]
    rcases hr with rfl | hr
    · exact absurd h1.isInfix h
    · exact not_infix_lineR hrp hl hc hr
  · rw [vl_n x h1]
    rcases hn with rfl | hn
    · exact absurd h1.isInfix h
    · exact not_infix_lineN hl hd hn
  · have := vl_anchor x (s := []) (Or.inl rfl)
    rw [List.append_nil] at this
    rw [this]
    exact ha rfl
  · rw [h1]; exact h

theorem plain_not_mem {v : Str} {c : Char} (hv : Plain v) (hc : c.isAlphanum = false ∧ c ∉ ['.', '-', '+', '_', '"']) :
    c ∉ '"' :: v ++ ['"'] := by
  intro hm
  simp only [List.cons_append, List.mem_cons, List.mem_append, List.not_mem_nil, or_false] at hm
  rcases hm with rfl | hm | rfl
  · exact hc.2 (by simp)
  · rcases hv c hm with h | h
    · rw [hc.1] at h; cases h
    · refine hc.2 ?_
      simp only [List.mem_cons, List.not_mem_nil, or_false] at h ⊢
      rcases h with h | h | h | h <;> simp [h]
  · exact hc.2 (by simp)

/-- The linked file can be linked again. -/
theorem Linkable.again {x : Xgo} {core : Str} {L : List Str} (h : Linkable core L) (hv : Plain x.version) (hr : Plain x.revision) :
    Linkable core (L.map (versionLine x)) := by
  have pb : ∀ {w : Str}, w = pv ∨ w = pr ∨ w = pn → ∀ l, ¬ w <:+: l → ¬ w <:+: versionLine x l := by
    intro w hw l hl
    have e : w.getLast? = some ' ' := by rcases hw with rfl | rfl | rfl <;> decide +kernel
    refine versionLine_avoid hv hr e (by decide) (by decide) ?_ ?_ ?_ ?_ hl
    · rcases hw with rfl | rfl | rfl
      · exact Or.inl rfl
      · exact Or.inr (by noinfix)
      · exact Or.inr (by noinfix)
    · rcases hw with rfl | rfl | rfl
      · exact Or.inr (by noinfix)
      · exact Or.inl rfl
      · exact Or.inr (by noinfix)
    · rcases hw with rfl | rfl | rfl
      · exact Or.inr (by noinfix)
      · exact Or.inr (by noinfix)
      · exact Or.inl rfl
    · rintro -
      rcases hw with rfl | rfl | rfl <;> noinfix
  have nsp : ∀ {w v : Str}, w.getLast? = some ' ' → Plain v → ¬ w <:+: '"' :: v ++ ['"'] := by
    intro w v e hp hi
    exact plain_not_mem hp (c := ' ') (by decide) (hi.subset (List.mem_of_getLast? e))
  have other : ∀ l, Other l → Other (versionLine x l) := by
    intro l hl
    have hne : l ≠ anchor := fun e => hl.1 (by rw [e]; exact List.infix_refl _)
    rw [versionLine_filled x hne]
    exact filled_other hv hr hl
  have nl : ∀ {s : Str}, Plain s → '\n' ∉ s := by
    intro s hs hm
    have := hs _ hm
    revert this; decide
  refine ⟨?_, ?_, ?_, ?_, ?_, ?_, ?_⟩
  · intro l hl
    obtain ⟨l', hl', rfl⟩ := List.mem_map.1 hl
    rcases vl_cases x l' with h1 | h1 | h1 | rfl | ⟨h1, -⟩
    · rw [vl_v x h1]; exact not_mem3 (by decide +kernel) (nl hv) (by decide +kernel)
    · rw [vl_r x h1]; exact not_mem3 (by decide +kernel) (nl hr) (by decide +kernel)
    · rw [vl_n x h1]
      intro hm
      rcases List.mem_append.1 hm with hm | hm
      · revert hm; decide +kernel
      · have := Support.digit_toDigits hm; revert this; decide
    · have := vl_anchor x (s := []) (Or.inl rfl)
      rw [List.append_nil] at this
      rw [this]; decide +kernel
    · rw [h1]; exact h.lines _ hl'
  · refine one_map h.v (fun rest _ => ⟨_, (vl_v x (List.prefix_append _ _)).trans (lineV_eq x), nsp (by decide +kernel) hv⟩) (pb (Or.inl rfl))
  · refine one_map h.r (fun rest _ => ⟨_, (vl_r x (List.prefix_append _ _)).trans (lineR_eq x), nsp (by decide +kernel) hr⟩) (pb (Or.inr (Or.inl rfl)))
  · refine one_map h.n (fun rest _ => ⟨_, vl_n x (List.prefix_append _ _), ?_⟩) (pb (Or.inr (Or.inr rfl)))
    intro hi
    have e : (" ".toList).getLast? = some ' ' := by decide
    have : ' ' ∈ Nat.toDigits 10 x.number := hi.subset (by decide +kernel)
    have := Support.digit_toDigits this
    revert this; decide
  · refine one_map h.c (fun rest hr => ⟨rest, ?_, hr⟩) ?_
    · change versionLine x (pc ++ rest) = pc ++ rest
      rw [vl_skip x apart_cv.not_prefix apart_cr.not_prefix apart_cn.not_prefix, if_neg]
      intro e
      have : Apart pc anchor := by unfold Apart; decide +kernel
      exact this.not_prefix (rest := rest) (by rw [e]; exact List.prefix_refl _)
    · intro l hl
      exact versionLine_avoid (c := '=') hv hr (by decide +kernel) (by decide) (by decide) (Or.inr (by noinfix)) (Or.inr (by noinfix))
        (Or.inr (by noinfix)) (fun _ => by noinfix) hl
  · refine List.mem_map.2 ⟨_, h.core, ?_⟩
    rw [core_line, vl_skip x apart_cv.not_prefix apart_cr.not_prefix apart_cn.not_prefix, if_neg]
    intro e
    have : Apart pc anchor := by unfold Apart; decide +kernel
    exact this.not_prefix (rest := ' ' :: '"' :: core ++ ['"']) (by rw [e]; exact List.prefix_refl _)
  · obtain ⟨L1, s, L2, rfl, hs, h1, h2⟩ := h.check
    refine ⟨L1.map (versionLine x), bypass, L2.map (versionLine x), by simp [vl_anchor x hs], Or.inr rfl, ?_, ?_⟩
    · intro l hl; obtain ⟨l', hl', rfl⟩ := List.mem_map.1 hl; exact other _ (h1 _ hl')
    · intro l hl; obtain ⟨l', hl', rfl⟩ := List.mem_map.1 hl; exact other _ (h2 _ hl')

/-- A release can be linked. -/
theorem linkable {x : Xgo} {r : Release x} (h : r.WF) : Linkable r.core r.version ∧ CoreOk r.core := by
  refine ⟨⟨h.versionLines, h.oneVersion, h.oneRevision, h.oneNumber, h.coreVersion, h.hcore, ?_⟩, h.core_plain, h.core_new⟩
  obtain ⟨L1, rest, L2, he, h1, -, h2⟩ := h.check
  have hm := h.hcheck
  rw [he] at hm
  have := mem_one h1 h2 hm (List.infix_refl _)
  have hr : rest = [] := by simpa using this
  have ea : "func checkVersion() error {".toList = anchor := by decide +kernel
  have hmem : ∀ l, l ∈ L1 ∨ l ∈ L2 → l ∈ r.version := by
    intro l hl; rw [he, List.mem_append, List.mem_cons]; exact hl.imp id Or.inr
  rw [hr, ea] at he
  rw [ea] at h1 h2
  exact ⟨L1, [], L2, he, Or.inl rfl, fun l hl => ⟨h1 l hl, h.unmarked l (hmem l (Or.inl hl))⟩,
    fun l hl => ⟨h2 l hl, h.unmarked l (hmem l (Or.inr hl))⟩⟩

/-! ### flags.go -/

def qc : Str := "const COLLECT_TEST_TRACE = ".toList
def qd : Str := "const COLLECT_TEST_TRACE_DIR = ".toList
def qr : Str := "const XGO_RACE_SAFE = ".toList

theorem apart_cd : Apart qc qd := by unfold Apart; decide +kernel
theorem apart_cs : Apart qc qr := by unfold Apart; decide +kernel
theorem apart_ds : Apart qd qr := by unfold Apart; decide +kernel

def lineC (o : Opts) : Str := qc ++ boolText o.collect
def lineD (o : Opts) : Str := qd ++ quote o.dir
def lineS (o : Opts) : Str := qr ++ boolText o.race

theorem flagsLine_eq (o : Opts) (l : Str) : flagsLine o l =
    if qc.isPrefixOf l then lineC o else if qd.isPrefixOf l then lineD o else if qr.isPrefixOf l then lineS o else l := by
  have h : "const COLLECT_TEST_TRACE_DIR = \"".toList ++ o.dir.flatMap quoteChar ++ "\"".toList = lineD o := by
    have : "const COLLECT_TEST_TRACE_DIR = \"".toList = qd ++ ['"'] := by decide +kernel
    rw [this, List.append_assoc, List.append_assoc]
    rfl
  unfold flagsLine
  rw [h]
  rfl

section
variable (o : Opts) {l : Str}

theorem fl_c (h : qc <+: l) : flagsLine o l = lineC o := by
  rw [flagsLine_eq, if_pos (List.isPrefixOf_iff_prefix.2 h)]

theorem fl_d (h : qd <+: l) : flagsLine o l = lineD o := by
  rw [flagsLine_eq, if_neg (fun h' => apart_cd.symm.not_both h (List.isPrefixOf_iff_prefix.1 h')),
    if_pos (List.isPrefixOf_iff_prefix.2 h)]

theorem fl_s (h : qr <+: l) : flagsLine o l = lineS o := by
  rw [flagsLine_eq, if_neg (fun h' => apart_cs.symm.not_both h (List.isPrefixOf_iff_prefix.1 h')),
    if_neg (fun h' => apart_ds.symm.not_both h (List.isPrefixOf_iff_prefix.1 h')), if_pos (List.isPrefixOf_iff_prefix.2 h)]

theorem fl_cases (l : Str) : qc <+: l ∨ qd <+: l ∨ qr <+: l ∨ (flagsLine o l = l ∧ ¬ qc <+: l ∧ ¬ qd <+: l ∧ ¬ qr <+: l) := by
  by_cases h1 : qc <+: l
  · exact Or.inl h1
  by_cases h2 : qd <+: l
  · exact Or.inr (Or.inl h2)
  by_cases h3 : qr <+: l
  · exact Or.inr (Or.inr (Or.inl h3))
  refine Or.inr (Or.inr (Or.inr ⟨?_, h1, h2, h3⟩))
  rw [flagsLine_eq, if_neg (fun h' => h1 (List.isPrefixOf_iff_prefix.1 h')),
    if_neg (fun h' => h2 (List.isPrefixOf_iff_prefix.1 h')), if_neg (fun h' => h3 (List.isPrefixOf_iff_prefix.1 h'))]

/-- Setting the flags again. -/
theorem flagsLine_twice (o' : Opts) (l : Str) : flagsLine o (flagsLine o' l) = flagsLine o l := by
  rcases fl_cases o' l with h | h | h | ⟨h, -⟩
  · rw [fl_c o' h, fl_c o h, fl_c o]; exact List.prefix_append _ _
  · rw [fl_d o' h, fl_d o h, fl_d o]; exact List.prefix_append _ _
  · rw [fl_s o' h, fl_s o h, fl_s o]; exact List.prefix_append _ _
  · rw [h]

theorem flagsLine_set : flagsLine o l = setLine qr (lineS o) (setLine qd (lineD o) (setLine qc (lineC o) l)) := by
  rcases fl_cases o l with h1 | h1 | h1 | ⟨h1, h2, h3, h4⟩
  · rw [fl_c o h1, setLine_pos h1, lineC, setLine_neg apart_cd.not_prefix, setLine_neg apart_cs.not_prefix]
  · rw [fl_d o h1, setLine_neg (apart_cd.symm.not_both h1), setLine_pos h1, lineD, setLine_neg apart_ds.not_prefix]
  · rw [fl_s o h1, setLine_neg (apart_cs.symm.not_both h1), setLine_neg (apart_ds.symm.not_both h1), setLine_pos h1]
  · rw [h1, setLine_neg h2, setLine_neg h3, setLine_neg h4]

end

/-- Lines of flags.go. -/
structure Flags (L : List Str) : Prop where
  lines : ∀ l ∈ L, '\n' ∉ l
  c : One qc L
  d : One qd L
  s : One qr L

theorem quoteChar_line (c : Char) : '\n' ∉ quoteChar c := by
  unfold quoteChar
  repeat' split
  all_goals first | decide | skip
  rename_i h _ _
  simpa using fun e => h e.symm

theorem quote_line (s : Str) : '\n' ∉ quote s := by
  unfold quote
  intro h
  rcases List.mem_append.1 h with h | h
  · rcases List.mem_cons.1 h with h | h
    · revert h; decide
    · obtain ⟨c, -, hc⟩ := List.mem_flatMap.1 h
      exact quoteChar_line c hc
  · revert h; decide

/-- A declaration, as far as the lines of flags.go are concerned. -/
structure Decl (w : Str) : Prop where
  start : "const ".toList <:+: w
  last : w.getLast? = some ' '
  quote : '"' ∉ w

theorem decl_c : Decl qc := ⟨⟨[], _, rfl⟩, by decide +kernel, by decide +kernel⟩
theorem decl_d : Decl qd := ⟨⟨[], _, rfl⟩, by decide +kernel, by decide +kernel⟩
theorem decl_s : Decl qr := ⟨⟨[], _, rfl⟩, by decide +kernel, by decide +kernel⟩

theorem Decl.ne {w : Str} (h : Decl w) : w ≠ [] := by rintro rfl; cases h.last

theorem not_infix_bool {w : Str} (h : Decl w) (b : Bool) : ¬ w <:+: boolText b := by
  intro hi
  have := hi.subset (List.mem_of_getLast? h.last)
  revert this
  cases b <;> decide

theorem not_infix_q {w : Str} (h : Decl w) {o : Opts} (ho : DirOk o) : ¬ w <:+: quote o.dir := by
  intro hi
  have hi : w <:+: [] ++ '"' :: (o.dir.flatMap quoteChar ++ '"' :: []) := by simpa [quote] using hi
  rcases infix_sep h.quote hi with h1 | h1
  · exact h.ne (List.infix_nil.1 h1)
  · rcases infix_sep h.quote h1 with h1 | h1
    · exact ho (h.start.trans h1)
    · exact h.ne (List.infix_nil.1 h1)

theorem not_infix_lineC {w : Str} (h : Decl w) (o : Opts) (hw : ¬ w <:+: qc) : ¬ w <:+: lineC o := by
  intro hi
  refine hw (infix_last h.last ?_ hi)
  cases o.collect <;> decide

theorem not_infix_lineS {w : Str} (h : Decl w) (o : Opts) (hw : ¬ w <:+: qr) : ¬ w <:+: lineS o := by
  intro hi
  refine hw (infix_last h.last ?_ hi)
  cases o.race <;> decide

theorem not_infix_lineD {w : Str} (h : Decl w) {o : Opts} (ho : DirOk o) (hw : ¬ w <:+: qd) : ¬ w <:+: lineD o := by
  intro hi
  have hi : w <:+: qd ++ '"' :: (o.dir.flatMap quoteChar ++ ['"']) := hi
  rcases infix_sep h.quote hi with h1 | h1
  · exact hw h1
  · exact not_infix_q h ho (List.infix_cons h1)

theorem boolText_line (b : Bool) : '\n' ∉ boolText b := by cases b <;> decide

theorem inject {L : List Str} (h : Flags L) {o : Opts} (ho : DirOk o) :
    injectFlags (unlines L) o.collect o.dir o.race = unlines (L.map (flagsLine o)) := by
  have nm : ∀ {a b : Str}, '\n' ∉ a → '\n' ∉ b → '\n' ∉ a ++ b := by intro a b h1 h2; simp [h1, h2]
  have e1 : replaceByLine (unlines L) qc (lineC o) = unlines (L.map (setLine qc (lineC o))) :=
    replaceByLine_one pat_collect h.c h.lines
  have l1 := lines_setLine (pat := qc) h.lines (nm (a := qc) (by decide +kernel) (boolText_line o.collect))
  have o2 := one_setLine (pat' := qc) (new := lineC o) h.d apart_cd.symm (not_infix_lineC decl_d o (by noinfix))
  have e2 : replaceByLine (unlines (L.map (setLine qc (lineC o)))) qd (lineD o) =
      unlines ((L.map (setLine qc (lineC o))).map (setLine qd (lineD o))) := replaceByLine_one pat_dir o2 l1
  have l2 := lines_setLine (pat := qd) l1 (nm (a := qd) (by decide +kernel) (quote_line o.dir))
  have o3 := one_setLine (pat' := qc) (new := lineC o) h.s apart_cs.symm (not_infix_lineC decl_s o (by noinfix))
  have o4 := one_setLine (pat' := qd) (new := lineD o) o3 apart_ds.symm (not_infix_lineD decl_s ho (by noinfix))
  have e3 := replaceByLine_one (r := lineS o) pat_race o4 l2
  have e : L.map (flagsLine o) = ((L.map (setLine qc (lineC o))).map (setLine qd (lineD o))).map (setLine qr (lineS o)) := by
    rw [List.map_map, List.map_map]
    exact List.map_congr_left fun l _ => flagsLine_set o
  refine Eq.trans ?_ (congrArg unlines e.symm)
  refine Eq.trans ?_ e3
  rw [← e2, ← e1]
  rfl

theorem Flags.again {L : List Str} (h : Flags L) {o : Opts} (ho : DirOk o) : Flags (L.map (flagsLine o)) := by
  have nm : ∀ {a b : Str}, '\n' ∉ a → '\n' ∉ b → '\n' ∉ a ++ b := by intro a b h1 h2; simp [h1, h2]
  have avoid : ∀ {w}, Decl w → (w = qc ∨ ¬ w <:+: qc) → (w = qd ∨ ¬ w <:+: qd) → (w = qr ∨ ¬ w <:+: qr) → ∀ l, ¬ w <:+: l →
      ¬ w <:+: flagsLine o l := by
    intro w hw hc hd hs l hl
    rcases fl_cases o l with h1 | h1 | h1 | ⟨h1, -⟩
    · rw [fl_c o h1]
      rcases hc with rfl | hc
      · exact absurd h1.isInfix hl
      · exact not_infix_lineC hw o hc
    · rw [fl_d o h1]
      rcases hd with rfl | hd
      · exact absurd h1.isInfix hl
      · exact not_infix_lineD hw ho hd
    · rw [fl_s o h1]
      rcases hs with rfl | hs
      · exact absurd h1.isInfix hl
      · exact not_infix_lineS hw o hs
    · rw [h1]; exact hl
  refine ⟨?_, ?_, ?_, ?_⟩
  · intro l hl
    obtain ⟨l', hl', rfl⟩ := List.mem_map.1 hl
    rcases fl_cases o l' with h1 | h1 | h1 | ⟨h1, -⟩
    · rw [fl_c o h1]; exact nm (by decide +kernel) (boolText_line _)
    · rw [fl_d o h1]; exact nm (by decide +kernel) (quote_line _)
    · rw [fl_s o h1]; exact nm (by decide +kernel) (boolText_line _)
    · rw [h1]; exact h.lines _ hl'
  · exact one_map h.c (fun rest _ => ⟨_, fl_c o (List.prefix_append _ _), not_infix_bool decl_c _⟩)
      (avoid decl_c (Or.inl rfl) (Or.inr (by noinfix)) (Or.inr (by noinfix)))
  · exact one_map h.d (fun rest _ => ⟨_, fl_d o (List.prefix_append _ _), not_infix_q decl_d ho⟩)
      (avoid decl_d (Or.inr (by noinfix)) (Or.inl rfl) (Or.inr (by noinfix)))
  · exact one_map h.s (fun rest _ => ⟨_, fl_s o (List.prefix_append _ _), not_infix_bool decl_s _⟩)
      (avoid decl_s (Or.inr (by noinfix)) (Or.inr (by noinfix)) (Or.inl rfl))

theorem flags_release {x : Xgo} {r : Release x} (h : r.WF) : Flags r.flags := ⟨h.flagsLines, h.oneCollect, h.oneDir, h.oneRace⟩

/-- Without options the flags are those of the embedded file. -/
theorem flags_off {x : Xgo} {r : Release x} (h : r.WF) (o : Opts) (ho : On o = false) : r.flags.map (flagsLine o) = r.flags := by
  have hon : o.collect = false ∧ o.dir = [] ∧ o.race = false := by
    unfold On at ho
    simp only [Bool.or_eq_false_iff, decide_eq_false_iff_not, Decidable.not_not] at ho
    exact ⟨ho.1.1, ho.1.2, ho.2⟩
  have key : ∀ {p line : Str}, One p r.flags → line ∈ r.flags → p <+: line → ∀ l ∈ r.flags, p <+: l → l = line := by
    intro p line ⟨L1, rest, L2, he, h1, _, h2⟩ hm hp l hl hpl
    rw [he] at hm hl
    rw [mem_one h1 h2 hm hp.isInfix, mem_one h1 h2 hl hpl.isInfix]
  conv => rhs; rw [← List.map_id r.flags]
  refine List.map_congr_left fun l hl => ?_
  rcases fl_cases o l with h1 | h1 | h1 | ⟨h1, -⟩
  · rw [fl_c o h1, key h.oneCollect h.off.1 ⟨"false".toList, by decide +kernel⟩ l hl h1]
    unfold lineC; rw [hon.1]; decide +kernel
  · rw [fl_d o h1, key h.oneDir h.off.2.1 ⟨"\"\"".toList, by decide +kernel⟩ l hl h1]
    unfold lineD; rw [hon.2.1]; decide +kernel
  · rw [fl_s o h1, key h.oneRace h.off.2.2 ⟨"false".toList, by decide +kernel⟩ l hl h1]
    unfold lineS; rw [hon.2.2]; decide +kernel
  · exact h1

/-! ### The number of the copy -/

theorem splitLines_line {l rest : Str} (h : '\n' ∉ l) : splitLines (l ++ '\n' :: rest) = l :: splitLines rest := by
  induction l with
  | nil => simp [splitLines]
  | cons c l ih =>
    simp only [List.mem_cons, not_or] at h
    simp only [List.cons_append, splitLines]
    rw [if_neg (fun e => h.1 e.symm), ih h.2]

theorem splitLines_unlines {L : List Str} (h : ∀ l ∈ L, '\n' ∉ l) : splitLines (unlines L) = L ++ [[]] := by
  induction L with
  | nil => rfl
  | cons l L ih =>
    rw [unlines_cons, splitLines_line (h l (by simp)), ih fun l' hl' => h l' (by simp [hl'])]
    rfl

def nb : Str := "const NUMBER = ".toList

theorem positive_digits {n : Nat} (h : 0 < n) : positive (Nat.toDigits 10 n) = some n := by
  unfold positive
  have h1 : (Nat.toDigits 10 n).all Char.isDigit = true := by
    rw [List.all_eq_true]
    intro c hc
    exact Nat.isDigit_of_mem_toDigits (by decide) (by decide) hc
  rw [if_pos ⟨Nat.toDigits_ne_nil, h1⟩, Nat.ofDigitChars_ten_toDigits]
  simp only
  rw [if_neg (by omega)]

theorem number_of {n : Nat} {L : List Str} (hl : ∀ l ∈ L, '\n' ∉ l) (h1 : One nb L) (hm : nb ++ Nat.toDigits 10 n ∈ L) (hn : 0 < n) :
    numberOf (unlines L) = some n := by
  unfold numberOf
  rw [splitLines_unlines hl]
  obtain ⟨L1, rest, L2, rfl, ha, -, hb⟩ := h1
  have e := mem_one ha hb hm (List.prefix_append _ _).isInfix
  have hr : rest = Nat.toDigits 10 n := (List.append_cancel_left e).symm
  have hf : (L1 ++ (nb ++ rest) :: L2 ++ [[]]).find? (fun l => nb.isPrefixOf l) = some (nb ++ rest) := by
    rw [List.append_assoc, List.find?_append, List.find?_eq_none.2, List.cons_append, List.find?_cons_of_pos]
    · rfl
    · exact List.isPrefixOf_iff_prefix.2 (List.prefix_append _ _)
    · intro l hl h'
      exact ha l hl (List.isPrefixOf_iff_prefix.1 h').isInfix
  change (match (L1 ++ (nb ++ rest) :: L2 ++ [[]]).find? (fun l => nb.isPrefixOf l) with
    | none => none
    | some l => positive (l.drop nb.length)) = _
  rw [hf]
  simp only [List.drop_left]
  rw [hr, positive_digits hn]

/-- The number of a release, before and after linking. -/
theorem number_release {x : Xgo} {r : Release x} (h : r.WF) : numberOf (unlines r.version) = some r.number :=
  number_of h.versionLines h.coreNumber h.hnumber h.number_pos

theorem number_linked {x y : Xgo} {r : Release x} (h : r.WF) (hv : Plain y.version) (hr : Plain y.revision) :
    numberOf (unlines (r.version.map (versionLine y))) = some r.number := by
  have h1 : Apart nb pv := by unfold Apart; decide +kernel
  have h2 : Apart nb pr := by unfold Apart; decide +kernel
  have h3 : Apart nb pn := by unfold Apart; decide +kernel
  have h4 : Apart nb anchor := by unfold Apart; decide +kernel
  have fix : ∀ rest, versionLine y (nb ++ rest) = nb ++ rest := by
    intro rest
    rw [vl_skip y h1.not_prefix h2.not_prefix h3.not_prefix, if_neg]
    intro e
    exact h4.not_prefix (rest := rest) (by rw [e]; exact List.prefix_refl _)
  refine number_of ((linkable h).1.again hv hr).lines ?_ (List.mem_map.2 ⟨_, h.hnumber, fix _⟩) h.number_pos
  refine one_map h.coreNumber (fun rest hr => ⟨rest, fix rest, hr⟩) fun l hl => ?_
  exact versionLine_avoid (c := ' ') hv hr (by decide +kernel) (by decide) (by decide) (Or.inr (by noinfix)) (Or.inr (by noinfix))
    (Or.inr (by noinfix)) (fun _ => by noinfix) hl

end Verif.Cmd.RuntimeCopy
