import Verif.Cmd.Vendor
import Verif.Cmd.VendorSpec
import Verif.Support.SemverProps
import Verif.Support.GoVersionProps
/-
Proofs about vendored projects (C70).
-/
namespace Verif.Cmd.Vendor

open Spec

/-- A semantic version (see SemverSpec.lean). -/
def Ver (s : Str) : Prop := ∃ v, Support.Semver.Spec.Text s v

theorem ver_iff {s : Str} : Ver s ↔ Support.Semver.isValidSemVer s = true := (Support.Semver.C29_valid_iff s).symm

abbrev W1 (s : Str) : Prop := Word isSpace s

/-! ### Words and lines -/

theorem fieldsFrom_word {t : Str} (ht : ∀ c ∈ t, isSpace c = false) : ∀ (w r : Str), fieldsFrom w (t ++ r) = fieldsFrom (w ++ t) r := by
  induction t with
  | nil => intro w r; simp
  | cons c t ih =>
    intro w r
    have h1 := ht c List.mem_cons_self
    simp only [List.cons_append, fieldsFrom, h1]
    rw [if_neg (by simp), ih (fun d hd => ht d (List.mem_cons_of_mem _ hd))]
    simp

theorem fields_word {t : Str} (ht : W1 t) (r : Str) : fields (t ++ ' ' :: r) = t :: fields r := by
  have : isSpace ' ' = true := by decide
  simp only [fields, fieldsFrom_word ht.2, List.nil_append, fieldsFrom, this, if_neg ht.1, if_true]

theorem fields_last {t : Str} (ht : W1 t) : fields t = [t] := by
  have := fieldsFrom_word ht.2 [] []
  simp only [List.append_nil, List.nil_append] at this
  simp only [fields, this, fieldsFrom, if_neg ht.1]

theorem splitFrom_free {sep : Char} {t : Str} (ht : sep ∉ t) : ∀ (w r : Str), splitFrom sep w (t ++ r) = splitFrom sep (w ++ t) r := by
  induction t with
  | nil => intro w r; simp
  | cons c t ih =>
    intro w r
    have h1 : c ≠ sep := fun h => ht (h ▸ List.mem_cons_self)
    simp only [List.cons_append, splitFrom, if_neg h1]
    rw [ih (fun h => ht (List.mem_cons_of_mem _ h))]
    simp

theorem split_one {sep : Char} {a : Str} (ha : sep ∉ a) : split sep a = [a] := by
  have := splitFrom_free ha [] []
  rw [List.append_nil] at this
  rw [split, this]; rfl

theorem split_two {sep : Char} {a b : Str} (ha : sep ∉ a) (hb : sep ∉ b) : split sep (a ++ sep :: b) = [a, b] := by
  have h1 := split_one hb
  rw [split] at h1 ⊢
  rw [splitFrom_free ha, splitFrom, if_pos rfl, h1]; rfl

theorem split_lines {ls : List Str} (h : ∀ l ∈ ls, '\n' ∉ l) : split '\n' (ls.flatMap (fun l => l ++ ['\n'])) = ls ++ [[]] := by
  induction ls with
  | nil => rfl
  | cons l ls ih =>
    have h1 := ih (fun x hx => h x (List.mem_cons_of_mem _ hx))
    simp only [List.flatMap_cons, split, List.append_assoc] at h1 ⊢
    rw [splitFrom_free (h l List.mem_cons_self)]
    simp only [List.nil_append, List.singleton_append, splitFrom, if_true, h1]
    rfl

theorem word_free {t : Str} (ht : W1 t) {c : Char} (hc : isSpace c = true) : c ∉ t := fun h => by
  rw [ht.2 c h] at hc; cases hc

/-! ### Lines of modules.txt -/

def key (m : Module) : ModVersion := { path := m.path, version := m.version }

def replOf : Option (Str × Option Str) → ModVersion
  | none => {}
  | some (p, v) => { path := p, version := v.getD [] }

/-- What modules.txt says about a module. -/
def metaOf (m : Module) : Meta := { explicit := m.explicit, replacement := replOf m.repl, goVersion := m.goVersion.getD [] }

theorem upd_same {α β : Type} [DecidableEq α] (f : α → β) (k : α) (v : β) : upd f k v k = v := by simp [upd]

theorem upd_other {α β : Type} [DecidableEq α] (f : α → β) {k x : α} (v : β) (h : x ≠ k) : upd f k v x = f x := by simp [upd, h]

theorem upd_upd {α β : Type} [DecidableEq α] (f : α → β) (k : α) (v w : β) : upd (upd f k v) k w = upd f k w := by
  funext x; simp only [upd]; split <;> rfl

theorem upd_self {α β : Type} [DecidableEq α] (f : α → β) (k : α) : upd f k (f k) = f := by
  funext x; simp only [upd]; split
  · next h => rw [h]
  · rfl

/-- The fields of the part of a module line after the version. -/
def replFields : Option (Str × Option Str) → List Str
  | none => []
  | some (p, none) => ["=>".toList, p]
  | some (p, some v) => ["=>".toList, p, v]

theorem arrow_word : W1 "=>".toList := ⟨by simp, by decide⟩

theorem hash_word : W1 "#".toList := ⟨by simp, by decide⟩

theorem fields_withVersion {p : Str} {v : Option Str} (hp : W1 p) (hv : ∀ w, v = some w → W1 w) (r : Option (Str × Option Str))
    (hr : ∀ q w, r = some (q, w) → W1 q ∧ ∀ x, w = some x → W1 x) :
    fields ("# ".toList ++ withVersion p v ++ replText r) = "#".toList :: p :: (v.toList ++ replFields r) := by
  have hrepl : ∀ q w, r = some (q, w) → fields ("=> ".toList ++ withVersion q w) = replFields r := by
    intro q w hrw
    obtain ⟨hq, hw⟩ := hr q w hrw
    subst hrw
    show fields ("=>".toList ++ ' ' :: withVersion q w) = _
    rw [fields_word arrow_word]
    cases w with
    | none => simp only [withVersion, fields_last hq, replFields]
    | some w => simp only [withVersion, fields_word hq, fields_last (hw w rfl), replFields]
  show fields ("#".toList ++ ' ' :: (withVersion p v ++ replText r)) = _
  rw [fields_word hash_word]
  congr 1
  cases r with
  | none =>
    cases v with
    | none => simp [withVersion, replText, replFields, fields_last hp]
    | some v => simp [withVersion, replText, replFields, fields_word hp, fields_last (hv v rfl)]
  | some r =>
    obtain ⟨q, w⟩ := r
    have := hrepl q w rfl
    cases v with
    | none =>
      show fields (p ++ (' ' :: ("=> ".toList ++ withVersion q w))) = _
      rw [fields_word hp, this]; rfl
    | some v =>
      show fields ((p ++ ' ' :: v) ++ (' ' :: ("=> ".toList ++ withVersion q w))) = _
      rw [List.append_assoc, List.cons_append, fields_word hp, fields_word (hv v rfl), this]; rfl

theorem parseReplacement_eq (c : Info) {r : Option (Str × Option Str)} (hr : ∀ q w, r = some (q, w) → ∀ x, w = some x → Ver x)
    (h0 : r = none → (c.vmeta c.mod).replacement = {}) :
    ∃ l, parseReplacement c (replFields r) =
      { c with vmeta := upd c.vmeta c.mod { c.vmeta c.mod with replacement := replOf r }, replaced := l } := by
  cases r with
  | none =>
    refine ⟨c.replaced, ?_⟩
    have : parseReplacement c (replFields none) = c := rfl
    rw [this]
    have h1 := h0 rfl
    have : ({ c.vmeta c.mod with replacement := replOf none } : Meta) = c.vmeta c.mod := by
      cases hm : c.vmeta c.mod with
      | mk e r g => rw [hm] at h1; simp only at h1; subst h1; rfl
    rw [this, upd_self]
  | some r =>
    obtain ⟨p, v⟩ := r
    cases v with
    | none => exact ⟨c.replaced ++ [c.mod], by simp [parseReplacement, replFields, replOf]⟩
    | some v =>
      have := ver_iff.1 (hr p (some v) rfl v rfl)
      exact ⟨c.replaced ++ [c.mod], by simp [parseReplacement, replFields, replOf, this]⟩

theorem hash_prefix (s : Str) : "# ".toList.isPrefixOf ("# ".toList ++ s) = true := by
  rw [List.isPrefixOf_iff_prefix]; exact List.prefix_append _ _

/-- The line of a module. -/
theorem parse_module_line (c : Info) {m : Module} (hm : m.WF isSpace Ver) (h0 : c.vmeta (key m) = {}) :
    ∃ l, parseLine c ("# ".toList ++ withVersion m.path (some m.version) ++ replText m.repl) =
      { c with vmeta := upd c.vmeta (key m) { replacement := replOf m.repl }, replaced := l, mod := key m } := by
  have hf := fields_withVersion (v := some m.version) hm.path (fun w h => by cases h; exact hm.version.1) m.repl
    (fun q w h => ⟨(hm.repl q w h).1, fun x hx => ((hm.repl q w h).2 x hx).1⟩)
  have hv := ver_iff.1 hm.version.2
  simp only [parseLine, List.append_assoc, hash_prefix, if_true] at hf ⊢
  rw [hf]
  simp only [parseModuleLine, Option.toList, List.singleton_append, hv, if_true]
  have h1 : c.vmeta { path := m.path, version := m.version } = {} := h0
  obtain ⟨l, hl⟩ := parseReplacement_eq { c with mod := { path := m.path, version := m.version } } (r := m.repl)
    (fun q w h x hx => ((hm.repl q w h).2 x hx).2) (fun _ => by simp only [h1])
  refine ⟨l, ?_⟩
  rw [hl]
  simp only [h1]
  rfl

theorem extra_repl {e : Extra} (he : e.WF isSpace Ver) (q : Str) (w : Option Str) (h : some e.repl = some (q, w)) :
    W1 q ∧ ∀ x, w = some x → W1 x ∧ Ver x := by
  have h1 := he.repl
  rw [Option.some.inj h] at h1
  exact h1

/-- The line of another replacement. -/
theorem parse_extra_line (c : Info) {e : Extra} (he : e.WF isSpace Ver) :
    ∃ l, parseLine c e.line =
      { c with vmeta := upd c.vmeta { path := e.path, version := e.version.getD [] }
                 { c.vmeta { path := e.path, version := e.version.getD [] } with replacement := replOf (some e.repl) },
               replaced := l, mod := { path := e.path, version := e.version.getD [] } } := by
  have hf := fields_withVersion (v := e.version) he.path (fun w h => (he.version w h).1) (some e.repl)
    (fun q w h => ⟨(extra_repl he q w h).1, fun x hx => ((extra_repl he q w h).2 x hx).1⟩)
  simp only [Extra.line, parseLine, List.append_assoc, hash_prefix, if_true] at hf ⊢
  rw [hf]
  have hn : Support.Semver.isValidSemVer "=>".toList = false := by decide
  cases hv : e.version with
  | none =>
    have : replFields (some e.repl) = "=>".toList :: (replFields (some e.repl)).tail := by
      obtain ⟨p, v⟩ := e.repl
      cases v <;> rfl
    simp only [parseModuleLine, Option.toList, List.nil_append]
    rw [this]
    simp only [hn, if_true, Bool.false_eq_true, if_false]
    rw [← this]
    exact parseReplacement_eq { c with mod := { path := e.path } } (r := some e.repl)
      (fun q w h x hx => ((extra_repl he q w h).2 x hx).2) (fun h => by cases h)
  | some v =>
    have := ver_iff.1 (he.version v hv).2
    simp only [parseModuleLine, Option.toList, List.singleton_append, this, if_true]
    exact parseReplacement_eq { c with mod := { path := e.path, version := v } } (r := some e.repl)
      (fun q w h x hx => ((extra_repl he q w h).2 x hx).2) (fun h => by cases h)

/-! #### Annotations -/

theorem trim_cons (s : Str) : trimSpace (' ' :: s) = trimSpace s := by
  have : isSpace ' ' = true := by decide
  simp [trimSpace, List.dropWhile, this]

theorem trim_ends {a g : Str} {x : Char} (hx : isSpace x = false) (hg : W1 g) : trimSpace (x :: a ++ g) = x :: a ++ g := by
  have h1 : (x :: a ++ g).dropWhile isSpace = x :: a ++ g := by simp [List.dropWhile, hx]
  obtain ⟨g', y, rfl⟩ : ∃ g' y, g = g' ++ [y] := ⟨g.dropLast, g.getLast hg.1, (List.dropLast_concat_getLast hg.1).symm⟩
  have hy : isSpace y = false := hg.2 y (by simp)
  simp only [trimSpace, h1]
  have h2 : (x :: a ++ (g' ++ [y])).reverse = y :: (x :: a ++ g').reverse := by simp
  rw [h2]
  simp only [List.dropWhile, hy]
  simp

theorem parse_annotation_line (c : Info) (hc : c.mod.path ≠ []) (s : Str) :
    parseLine c ("## ".toList ++ s) = { c with vmeta := upd c.vmeta c.mod (annotate (c.vmeta c.mod) (split ';' s)) } := by
  have h1 : "# ".toList.isPrefixOf ("## ".toList ++ s) = false := rfl
  have h2 : cutPrefix ("## ".toList ++ s) "## ".toList = some s := rfl
  simp only [parseLine, h1, h2, if_neg hc]
  rfl

theorem annotate_go {g : Str} (hg : W1 g) (m : Meta) : annotate m ["go ".toList ++ g] = { m with goVersion := g } := by
  have h1 : trimSpace ("go ".toList ++ g) = "go ".toList ++ g := trim_ends (x := 'g') (a := "o ".toList) (by decide) hg
  have h2 : cutPrefix ("go ".toList ++ g) "go ".toList = some g := rfl
  have h3 : "go ".toList ++ g ≠ "explicit".toList := fun h => by cases h
  simp only [annotate, h1, h2, if_neg h3]

theorem annotate_explicit (m : Meta) (r : List Str) : annotate m ("explicit".toList :: r) = annotate { m with explicit := true } r := by
  have h1 : trimSpace "explicit".toList = "explicit".toList := by decide
  have h2 : cutPrefix "explicit".toList "go ".toList = none := by decide
  simp only [annotate, h1, h2, if_true]

/-- The annotations of a module. -/
theorem parse_annotations (c : Info) {m : Module} (hm : m.WF isSpace Ver) (hc : c.mod = key m)
    (h0 : c.vmeta (key m) = { replacement := replOf m.repl }) :
    (annotation m.explicit m.goVersion).foldl parseLine c = { c with vmeta := upd c.vmeta (key m) (metaOf m) } := by
  have hp : c.mod.path ≠ [] := by rw [hc]; exact hm.path.1
  cases hg : m.goVersion with
  | none =>
    cases he : m.explicit with
    | false =>
      simp only [annotation, Bool.false_eq_true, if_false, List.foldl_nil]
      have : metaOf m = c.vmeta (key m) := by rw [h0]; simp only [metaOf, he, hg]; rfl
      rw [this, upd_self]
    | true =>
      simp only [annotation, if_true, List.foldl_cons, List.foldl_nil]
      have : "## explicit".toList = "## ".toList ++ "explicit".toList := rfl
      rw [this, parse_annotation_line c hp, hc, h0]
      have : split ';' "explicit".toList = ["explicit".toList] := by decide
      rw [this, annotate_explicit]
      simp only [annotate, metaOf, he, hg]
      rfl
  | some g =>
    obtain ⟨hw, hs⟩ := hm.goVersion g hg
    have hgf : ';' ∉ "go ".toList ++ g := by
      rw [List.mem_append]; rintro (h | h)
      · revert h; decide
      · exact hs h
    have hgs := split_one hgf
    cases he : m.explicit with
    | false =>
      simp only [annotation, Bool.false_eq_true, if_false, List.foldl_cons, List.foldl_nil]
      have : "## go ".toList ++ g = "## ".toList ++ ("go ".toList ++ g) := rfl
      rw [this, parse_annotation_line c hp, hc, h0, hgs, annotate_go hw]
      simp only [metaOf, he, hg]
      rfl
    | true =>
      simp only [annotation, if_true, List.foldl_cons, List.foldl_nil]
      have : "## explicit; go ".toList ++ g = "## ".toList ++ ("explicit".toList ++ ';' :: (' ' :: ("go ".toList ++ g))) := rfl
      rw [this, parse_annotation_line c hp, hc, h0]
      have h2 := split_two (sep := ';') (a := "explicit".toList) (b := ' ' :: ("go ".toList ++ g)) (by decide) (by
        rw [List.mem_cons]; rintro (h | h)
        · revert h; decide
        · exact hgf h)
      have h3 : ∀ m : Meta, annotate m [' ' :: ("go ".toList ++ g)] = annotate m ["go ".toList ++ g] := by
        intro m; simp only [annotate, trim_cons]
      rw [h2, annotate_explicit, h3, annotate_go hw]
      simp only [metaOf, he, hg]
      rfl

/-! #### Packages -/

theorem modCompare_self (p v : Str) : modCompare p v v = 0 := by
  unfold modCompare
  split
  · exact (Support.GoVersion.C30_total_preorder v v v).2.1
  · split
    · exact (Support.GoVersion.C30_total_preorder _ [] []).2.1
    · exact (Support.Semver.C29_total_preorder v v v).2.1

theorem parse_package_line (c : Info) {p : Str} (hp : W1 p) (hc : c.mod.path ≠ []) : parseLine c p = parsePackageLine c [p] := by
  have h1 : "# ".toList.isPrefixOf p = false := by
    rw [← Bool.not_eq_true, List.isPrefixOf_iff_prefix]
    rintro ⟨t, rfl⟩
    exact word_free hp (c := ' ') (by decide) (by simp)
  have h2 : cutPrefix p "## ".toList = none := by
    have : "## ".toList.isPrefixOf p = false := by
      rw [← Bool.not_eq_true, List.isPrefixOf_iff_prefix]
      rintro ⟨t, rfl⟩
      exact word_free hp (c := ' ') (by decide) (by simp)
    simp only [cutPrefix, this]; rfl
  simp only [parseLine, h1, h2, if_neg hc, fields_last hp]
  rfl

theorem parse_package_again (c : Info) {p : Str} (h : c.version c.mod.path = some c.mod.version) :
    parsePackageLine c [p] = { c with pkgModule := upd c.pkgModule p (some c.mod) } := by
  simp only [parsePackageLine, h, modCompare_self]
  rfl

/-- The packages of a module. -/
theorem parse_packages_again {ps : List Str} (hp : ∀ p ∈ ps, W1 p) : ∀ (c : Info), c.mod.path ≠ [] →
    c.version c.mod.path = some c.mod.version →
    ps.foldl parseLine c = { c with pkgModule := fun p => if p ∈ ps then some c.mod else c.pkgModule p } := by
  induction ps with
  | nil => intro c _ _; simp
  | cons p ps ih =>
    intro c h1 h2
    rw [List.foldl_cons, parse_package_line c (hp p List.mem_cons_self) h1, parse_package_again c h2,
      ih (fun q hq => hp q (List.mem_cons_of_mem _ hq)) { c with pkgModule := upd c.pkgModule p (some c.mod) } h1 h2]
    congr 1
    funext q
    simp only [upd, List.mem_cons]
    by_cases hq : q ∈ ps
    · simp [hq]
    · by_cases hqp : q = p <;> simp [hq, hqp]

theorem parse_packages {ps : List Str} (hp : ∀ p ∈ ps, W1 p) (c : Info) (h1 : c.mod.path ≠ []) (h2 : c.version c.mod.path = none) :
    ps.foldl parseLine c = { c with
      pkgModule := fun p => if p ∈ ps then some c.mod else c.pkgModule p
      list := if ps = [] then c.list else c.list ++ [c.mod]
      version := if ps = [] then c.version else upd c.version c.mod.path (some c.mod.version) } := by
  cases ps with
  | nil => simp
  | cons p ps =>
    have e : parsePackageLine c [p] = { c with pkgModule := upd c.pkgModule p (some c.mod), list := c.list ++ [c.mod], version := upd c.version c.mod.path (some c.mod.version) } := by
      simp only [parsePackageLine, h2, if_true]
    rw [List.foldl_cons, parse_package_line c (hp p List.mem_cons_self) h1, e,
      parse_packages_again (fun q hq => hp q (List.mem_cons_of_mem _ hq))
        { c with pkgModule := upd c.pkgModule p (some c.mod), list := c.list ++ [c.mod], version := upd c.version c.mod.path (some c.mod.version) }
        h1 (upd_same _ _ _)]
    simp only [reduceCtorEq, if_false]
    congr 1
    funext q
    simp only [upd, List.mem_cons]
    by_cases hq : q ∈ ps
    · simp [hq]
    · by_cases hqp : q = p <;> simp [hq, hqp]

/-! #### Modules -/

theorem parse_module (c : Info) {m : Module} (hm : m.WF isSpace Ver) (h0 : c.vmeta (key m) = {}) (hv : c.version m.path = none) :
    ∃ l, m.lines.foldl parseLine c = { c with
      vmeta := upd c.vmeta (key m) (metaOf m), replaced := l, mod := key m,
      pkgModule := fun p => if p ∈ m.pkgs then some (key m) else c.pkgModule p
      list := if m.pkgs = [] then c.list else c.list ++ [key m]
      version := if m.pkgs = [] then c.version else upd c.version m.path (some m.version) } := by
  obtain ⟨l, hl⟩ := parse_module_line c hm h0
  refine ⟨l, ?_⟩
  rw [Module.lines, List.foldl_cons, hl, List.foldl_append, parse_annotations _ hm rfl (upd_same _ _ _)]
  rw [parse_packages hm.pkgs _ hm.path.1 hv]
  simp only [upd_upd]
  rfl

/-- The modules that provide packages. -/
def providers (mods : List Module) : List Module := mods.filter (fun m => m.pkgs ≠ [])

theorem parse_modules {mods : List Module} (hm : ∀ m ∈ mods, m.WF isSpace Ver) (hn : (mods.map (·.path)).Nodup)
    (hd : mods.Pairwise (fun a b => ∀ p ∈ b.pkgs, p ∉ a.pkgs)) :
    ∀ (c : Info), (∀ m ∈ mods, c.vmeta (key m) = {} ∧ c.version m.path = none) →
    ((mods.flatMap Module.lines).foldl parseLine c).list = c.list ++ (providers mods).map key ∧
    (∀ m ∈ mods, ((mods.flatMap Module.lines).foldl parseLine c).vmeta (key m) = metaOf m) ∧
    (∀ k, (∀ m ∈ mods, k ≠ key m) → ((mods.flatMap Module.lines).foldl parseLine c).vmeta k = c.vmeta k) ∧
    (∀ m ∈ mods, ∀ p ∈ m.pkgs, ((mods.flatMap Module.lines).foldl parseLine c).pkgModule p = some (key m)) ∧
    (∀ p, (∀ m ∈ mods, p ∉ m.pkgs) → ((mods.flatMap Module.lines).foldl parseLine c).pkgModule p = c.pkgModule p) := by
  induction mods with
  | nil => intro c _; simp [providers]
  | cons m ms ih =>
    intro c hc
    obtain ⟨h0, hv⟩ := hc m List.mem_cons_self
    obtain ⟨l, hl⟩ := parse_module c (hm m List.mem_cons_self) h0 hv
    rw [List.flatMap_cons, List.foldl_append, hl]
    rw [List.map_cons, List.nodup_cons] at hn
    rw [List.pairwise_cons] at hd
    have hpath : ∀ x ∈ ms, x.path ≠ m.path := fun x hx h => hn.1 (h ▸ List.mem_map_of_mem hx)
    have hkey : ∀ x ∈ ms, key x ≠ key m := fun x hx h => hpath x hx (congrArg ModVersion.path h)
    obtain ⟨a1, a2, a3, a4, a5⟩ := ih (fun x hx => hm x (List.mem_cons_of_mem _ hx)) hn.2 hd.2 { c with
      vmeta := upd c.vmeta (key m) (metaOf m), replaced := l, mod := key m,
      pkgModule := fun p => if p ∈ m.pkgs then some (key m) else c.pkgModule p
      list := if m.pkgs = [] then c.list else c.list ++ [key m]
      version := if m.pkgs = [] then c.version else upd c.version m.path (some m.version) } (by
        intro x hx
        refine ⟨?_, ?_⟩
        · simp only [upd, if_neg (hkey x hx)]; exact (hc x (List.mem_cons_of_mem _ hx)).1
        · simp only
          split
          · exact (hc x (List.mem_cons_of_mem _ hx)).2
          · simp only [upd, if_neg (hpath x hx)]; exact (hc x (List.mem_cons_of_mem _ hx)).2)
    refine ⟨?_, ?_, ?_, ?_, ?_⟩
    · rw [a1]
      by_cases hp : m.pkgs = [] <;> simp [providers, hp]
    · intro x hx
      rcases List.mem_cons.1 hx with rfl | hx
      · rw [a3 _ (fun y hy h => hkey y hy h.symm)]; exact upd_same _ _ _
      · exact a2 x hx
    · intro k hk
      rw [a3 k (fun y hy => hk y (List.mem_cons_of_mem _ hy))]
      exact upd_other _ _ (hk m List.mem_cons_self)
    · intro x hx p hp
      rcases List.mem_cons.1 hx with rfl | hx
      · rw [a5 p (fun y hy hpy => hd.1 y hy p hpy hp)]; simp [hp]
      · exact a4 x hx p hp
    · intro p hp
      rw [a5 p (fun y hy => hp y (List.mem_cons_of_mem _ hy))]
      simp [hp m List.mem_cons_self]

theorem parse_extras {es : List Extra} (he : ∀ e ∈ es, e.WF isSpace Ver) : ∀ (c : Info),
    ((es.map Extra.line).foldl parseLine c).list = c.list ∧
    ((es.map Extra.line).foldl parseLine c).pkgModule = c.pkgModule ∧
    (∀ k, (∀ e ∈ es, k ≠ { path := e.path, version := e.version.getD [] }) → ((es.map Extra.line).foldl parseLine c).vmeta k = c.vmeta k) := by
  induction es with
  | nil => intro c; simp
  | cons e es ih =>
    intro c
    obtain ⟨l, hl⟩ := parse_extra_line c (he e List.mem_cons_self)
    rw [List.map_cons, List.foldl_cons, hl]
    obtain ⟨a1, a2, a3⟩ := ih (fun x hx => he x (List.mem_cons_of_mem _ hx)) { c with
      vmeta := upd c.vmeta { path := e.path, version := e.version.getD [] }
                 { c.vmeta { path := e.path, version := e.version.getD [] } with replacement := replOf (some e.repl) },
      replaced := l, mod := { path := e.path, version := e.version.getD [] } }
    refine ⟨a1, a2, ?_⟩
    intro k hk
    rw [a3 k (fun x hx => hk x (List.mem_cons_of_mem _ hx))]
    exact upd_other _ _ (hk e List.mem_cons_self)

theorem parse_empty_line (c : Info) : parseLine c [] = c := by
  simp only [parseLine]
  split
  · next h => exact absurd h (by decide)
  · split
    · rfl
    · rfl

theorem withVersion_free {p : Str} {v : Option Str} (hp : W1 p) (hv : ∀ w, v = some w → W1 w) : '\n' ∉ withVersion p v := by
  cases v with
  | none => exact word_free hp (by decide)
  | some v =>
    simp only [withVersion, List.mem_append, List.mem_cons]
    rintro (h | h | h)
    · exact word_free hp (by decide) h
    · revert h; decide
    · exact word_free (hv v rfl) (by decide) h

theorem replText_free {r : Option (Str × Option Str)} (hr : ∀ q w, r = some (q, w) → W1 q ∧ ∀ x, w = some x → W1 x) : '\n' ∉ replText r := by
  cases r with
  | none => simp [replText]
  | some r =>
    obtain ⟨p, v⟩ := r
    simp only [replText, List.mem_append]
    rintro (h | h)
    · revert h; decide
    · exact withVersion_free (hr p v rfl).1 (hr p v rfl).2 h

theorem lines_free {mods : List Module} {extras : List Extra} (h : FileWF isSpace Ver mods extras) : ∀ l ∈ fileLines mods extras, '\n' ∉ l := by
  intro l hl
  simp only [fileLines, List.mem_append, List.mem_flatMap, List.mem_map] at hl
  rcases hl with ⟨m, hm, hl⟩ | ⟨e, he, rfl⟩
  · have w := h.wf m hm
    simp only [Module.lines, List.mem_cons, List.mem_append] at hl
    rcases hl with rfl | hl | hl
    · simp only [List.mem_append]
      rintro ((h | h) | h)
      · revert h; decide
      · exact withVersion_free w.path (fun _ hv => by cases hv; exact w.version.1) h
      · exact replText_free (fun q x hq => ⟨(w.repl q x hq).1, fun y hy => ((w.repl q x hq).2 y hy).1⟩) h
    · cases hg : m.goVersion with
      | none =>
        rw [hg] at hl
        cases he : m.explicit <;> rw [he] at hl <;> simp [annotation] at hl
        subst hl; decide
      | some g =>
        rw [hg] at hl
        have := word_free (w.goVersion g hg).1 (c := '\n') (by decide)
        cases he : m.explicit <;> rw [he] at hl <;> simp [annotation] at hl <;> subst hl <;> simp <;> exact this
    · exact word_free (w.pkgs l hl) (by decide)
  · have w := h.extraWF e he
    simp only [Extra.line, List.mem_append]
    rintro ((h | h) | h)
    · revert h; decide
    · exact withVersion_free w.path (fun _ hv => (w.version _ hv).1) h
    · exact replText_free (fun q x hq => ⟨(extra_repl w q x hq).1, fun y hy => ((extra_repl w q x hq).2 y hy).1⟩) h

/-- **C70**: modules.txt is read back as it was written: the modules that provide packages in order, and for each module whether
it is required explicitly, what it is replaced by, its language version and its packages. -/
theorem C70_parse {mods : List Module} {extras : List Extra} (h : FileWF isSpace Ver mods extras) :
    (parseVendor (fileText mods extras)).list = (mods.filter (fun m => m.pkgs ≠ [])).map (fun m => { path := m.path, version := m.version }) ∧
    ∀ m ∈ mods,
      (parseVendor (fileText mods extras)).vmeta { path := m.path, version := m.version } =
        { explicit := m.explicit
          replacement := (match m.repl with | none => {} | some (p, v) => { path := p, version := v.getD [] })
          goVersion := m.goVersion.getD [] } ∧
      ∀ p ∈ m.pkgs, (parseVendor (fileText mods extras)).pkgModule p = some { path := m.path, version := m.version } := by
  have e : parseVendor (fileText mods extras) = (extras.map Extra.line).foldl parseLine ((mods.flatMap Module.lines).foldl parseLine {}) := by
    rw [parseVendor, fileText, split_lines (lines_free h), List.foldl_append, List.foldl_cons, List.foldl_nil, parse_empty_line, fileLines,
      List.foldl_append]
  obtain ⟨a1, a2, a3, a4, a5⟩ := parse_modules h.wf h.onePath h.onePkg {} (fun m _ => ⟨rfl, rfl⟩)
  obtain ⟨b1, b2, b3⟩ := parse_extras h.extraWF ((mods.flatMap Module.lines).foldl parseLine {})
  rw [e]
  refine ⟨by rw [b1, a1]; rfl, ?_⟩
  intro m hm
  refine ⟨?_, ?_⟩
  · rw [b3 _ (by
      intro x hx hk
      have h1 := congrArg ModVersion.path hk
      have h2 := congrArg ModVersion.version hk
      simp only at h1 h2
      cases hv : x.version with
      | none =>
        rw [hv] at h2
        exact (h.wf m hm).version.1.1 h2
      | some v =>
        rw [hv] at h2
        exact h.extra x hx m hm ⟨h1.symm, by rw [hv, h2]; rfl⟩)]
    have := a2 m hm
    rw [show ({ path := m.path, version := m.version } : ModVersion) = key m from rfl, this]
    rfl
  · intro p hp
    rw [b2]; exact a4 m hm p hp

/-- **C70**, **C74.** What separates words in modules.txt and go.mod: the white space of Unicode. -/
theorem C70_space (c : Char) : isSpace c = true ↔ c.toNat ∈ [9, 10, 11, 12, 13, 32, 0x85, 0xA0, 0x1680, 0x2000, 0x2001, 0x2002, 0x2003, 0x2004,
    0x2005, 0x2006, 0x2007, 0x2008, 0x2009, 0x200a, 0x2028, 0x2029, 0x202f, 0x205f, 0x3000] := by
  have h : ∀ n, (Char.ofNat n).toNat = n → (c = Char.ofNat n ↔ c.toNat = n) := by
    intro n hn
    constructor
    · rintro rfl; exact hn
    · rintro rfl; exact (Char.ofNat_toNat c).symm
  unfold isSpace
  simp only [Bool.or_eq_true, Bool.and_eq_true, decide_eq_true_eq, List.contains_iff_mem, List.mem_cons, List.not_mem_nil, or_false]
  rw [show '\t' = Char.ofNat 9 from rfl, show '\n' = Char.ofNat 10 from rfl, show '\r' = Char.ofNat 13 from rfl, show ' ' = Char.ofNat 32 from rfl]
  rw [h 9 (by decide), h 10 (by decide), h 11 (by decide), h 12 (by decide), h 13 (by decide), h 32 (by decide), h 0x85 (by decide), h 0xA0 (by decide), h 0x1680 (by decide), h 0x2028 (by decide), h 0x2029 (by decide), h 0x202f (by decide), h 0x205f (by decide), h 0x3000 (by decide)]
  omega

end Verif.Cmd.Vendor
