import Verif.Cmd.VendorProps
/-
Proofs about vendored projects (C70): the go.mod that is built with, and where go finds the packages.
-/
namespace Verif.Cmd.Vendor

open Spec

/-! ### Batches -/

theorem groupsOf_flatten (limit : Nat) : ∀ (n : Nat) (args : List Str), (groupsOf limit n args).flatten = args := by
  intro n
  induction n with
  | zero => intro args; simp only [groupsOf]; split <;> simp_all
  | succ n ih => intro args; simp only [groupsOf, List.flatten_cons, ih, List.take_append_drop]

theorem groupsOf_small {limit : Nat} (hl : 0 < limit) : ∀ (n : Nat) (args : List Str), args.length / limit = n →
    ∀ g ∈ groupsOf limit n args, g ≠ [] ∧ g.length ≤ limit := by
  intro n
  induction n with
  | zero =>
    intro args hn g hg
    simp only [groupsOf] at hg
    split at hg
    · cases hg
    · next h =>
      simp only [List.mem_singleton] at hg
      subst hg
      refine ⟨h, ?_⟩
      rcases Nat.div_eq_zero_iff.1 hn with h0 | h0 <;> omega
  | succ n ih =>
    intro args hn g hg
    have hle : limit ≤ args.length := by
      rcases Nat.lt_or_ge args.length limit with h | h
      · rw [Nat.div_eq_of_lt h] at hn; cases hn
      · exact h
    simp only [groupsOf, List.mem_cons] at hg
    rcases hg with rfl | hg
    · refine ⟨fun h => ?_, by rw [List.length_take]; omega⟩
      have := congrArg List.length h
      rw [List.length_take] at this
      simp only [List.length_nil] at this
      omega
    · refine ih (args.drop limit) ?_ g hg
      rw [List.length_drop]
      have e : args.length = (args.length - limit) + limit := by omega
      rw [e, Nat.add_div_right _ hl] at hn
      omega

/-- **C70**: the flags are passed on in order, none is lost or repeated, and no call of `go mod edit` has more than the limit. -/
theorem C70_batches {args : List Str} {limit : Nat} (hl : 0 < limit) : (splitArgsBatch args limit).flatten = args ∧
    (∀ g ∈ splitArgsBatch args limit, g.length ≤ limit) ∧ (args ≠ [] → ∀ g ∈ splitArgsBatch args limit, g ≠ []) := by
  simp only [splitArgsBatch]
  split
  · next h => simp [h]
  · exact ⟨groupsOf_flatten _ _ _, fun g hg => (groupsOf_small hl _ _ rfl g hg).2, fun _ g hg => (groupsOf_small hl _ _ rfl g hg).1⟩

/-! ### go mod edit -/

theorem cutAt_free {c : Char} {a b : Str} (h : c ∉ a) : cutAt c (a ++ c :: b) = some (a, b) := by
  induction a with
  | nil => simp [cutAt]
  | cons x a ih =>
    have h1 : x ≠ c := fun e => h (e ▸ List.mem_cons_self)
    simp only [List.cons_append, cutAt, if_neg h1, ih (fun e => h (List.mem_cons_of_mem _ e)), Option.map_some]

theorem mem_setRequire {l : List (Str × Str)} {p v : Str} {q : Str × Str} :
    q ∈ setRequire l p v ↔ q = (p, v) ∨ (q.1 ≠ p ∧ q ∈ l) := by
  simp only [setRequire]
  split
  · next h =>
    rw [List.any_eq_true] at h
    obtain ⟨x, hx, he⟩ := h
    rw [beq_iff_eq] at he
    rw [List.mem_map]
    constructor
    · rintro ⟨y, hy, rfl⟩
      split
      · exact .inl rfl
      · next hn => exact .inr ⟨hn, hy⟩
    · rintro (rfl | ⟨hn, hq⟩)
      · exact ⟨x, hx, by rw [if_pos he]⟩
      · exact ⟨q, hq, by rw [if_neg hn]⟩
  · next h =>
    rw [List.any_eq_true] at h
    rw [List.mem_append, List.mem_singleton]
    constructor
    · rintro (hq | rfl)
      · exact .inr ⟨fun e => h ⟨q, hq, by rw [beq_iff_eq]; exact e⟩, hq⟩
      · exact .inl rfl
    · rintro (rfl | ⟨_, hq⟩)
      · exact .inr rfl
      · exact .inl hq

theorem mem_setReplace {l : List (Str × Option Str × Str)} {p t : Str} {q : Str × Option Str × Str} :
    q ∈ setReplace l p t ↔ q = (p, none, t) ∨ (q.1 ≠ p ∧ q ∈ l) := by
  simp only [setReplace, List.mem_append, List.mem_filter, List.mem_singleton, bne_iff_ne]
  constructor
  · rintro (⟨h1, h2⟩ | h)
    · exact .inr ⟨h2, h1⟩
    · exact .inl h
  · rintro (h | ⟨h1, h2⟩)
    · exact .inr h
    · exact .inl ⟨h2, h1⟩

theorem filter_setReplace {l : List (Str × Option Str × Str)} {p t y : Str} (h : y ≠ p) :
    (setReplace l p t).filter (fun q => q.1 == y) = l.filter (fun q => q.1 == y) := by
  have h1 : (p == y) = false := by rw [beq_eq_false_iff_ne]; exact fun e => h e.symm
  simp only [setReplace, List.filter_append, List.filter_cons, List.filter_nil, h1, List.filter_filter]
  simp only [Bool.false_eq_true, if_false, List.append_nil]
  refine List.filter_congr (fun q _ => ?_)
  by_cases hq : q.1 = y
  · simp [hq, h]
  · simp [hq]

/-- A module path: what separates the parts of the flags does not occur in it. -/
def PathOK (p : Str) : Prop := '@' ∉ p ∧ '=' ∉ p

theorem edit_require {p : Str} (h : PathOK p) (g : GoMod) (v : Str) :
    edit g ("-require=".toList ++ p ++ '@' :: v) = some { g with requires := setRequire g.requires p v } := by
  have e : "-require=".toList ++ p ++ '@' :: v = "-require".toList ++ '=' :: (p ++ '@' :: v) := by
    show "-require=".toList ++ p ++ '@' :: v = _
    rw [List.append_assoc]; rfl
  rw [e, edit, cutAt_free (by decide)]
  simp only [if_true, cutAt_free h.1, Option.map_some]

theorem edit_replace {p : Str} (h : PathOK p) (g : GoMod) (t : Str) :
    edit g ("-replace=".toList ++ p ++ '=' :: t) = some { g with replaces := setReplace g.replaces p t } := by
  have e : "-replace=".toList ++ p ++ '=' :: t = "-replace".toList ++ '=' :: (p ++ '=' :: t) := by
    rw [List.append_assoc]; rfl
  have hn : "-replace".toList ≠ "-require".toList := by decide
  rw [e, edit, cutAt_free (by decide)]
  simp only [if_neg hn, if_true, cutAt_free h.2, Option.map_some]

theorem edit_go (g : GoMod) (v : Str) : edit g ("-go=".toList ++ v) = some { g with goLine := some v } := by
  have e : "-go=".toList ++ v = "-go".toList ++ '=' :: v := rfl
  have hn : "-go".toList ≠ "-require".toList := by decide
  have hn' : "-go".toList ≠ "-replace".toList := by decide
  rw [e, edit, cutAt_free (by decide)]
  simp only [if_neg hn, if_neg hn', if_true]

theorem editAll_append (g : GoMod) (a b : List Str) : editAll g (a ++ b) = (editAll g a).bind (fun g' => editAll g' b) := by
  induction a generalizing g with
  | nil => rfl
  | cons f a ih =>
    simp only [List.cons_append, editAll]
    cases edit g f with
    | none => rfl
    | some g' => simp only [Option.bind_some, ih]

/-- The flags for modules given by path and version. -/
def flags (vendorDir : Str) (ms : List (Str × Str)) : List Str :=
  ms.flatMap (fun m => ["-require=".toList ++ m.1 ++ '@' :: m.2, "-replace=".toList ++ m.1 ++ '=' :: join vendorDir m.1])

theorem editAll_flags {vd : Str} {ms : List (Str × Str)} (hp : ∀ m ∈ ms, PathOK m.1) (hn : (ms.map (·.1)).Nodup) : ∀ (g : GoMod),
    ∃ g', editAll g (flags vd ms) = some g' ∧
      (∀ q, q ∈ g'.requires ↔ q ∈ ms ∨ (q.1 ∉ ms.map (·.1) ∧ q ∈ g.requires)) ∧
      (∀ q, q ∈ g'.replaces ↔ (∃ m ∈ ms, q = (m.1, none, join vd m.1)) ∨ (q.1 ∉ ms.map (·.1) ∧ q ∈ g.replaces)) ∧ 
      (∀ y, y ∉ ms.map (·.1) → g'.replaces.filter (fun q => q.1 == y) = g.replaces.filter (fun q => q.1 == y)) := by
  induction ms with
  | nil => intro g; exact ⟨g, rfl, by simp, by simp, fun _ _ => rfl⟩
  | cons m ms ih =>
    intro g
    rw [List.map_cons, List.nodup_cons] at hn
    obtain ⟨g', h1, h2, h3, h4⟩ := ih (fun x hx => hp x (List.mem_cons_of_mem _ hx)) hn.2
      { g with requires := setRequire g.requires m.1 m.2, replaces := setReplace g.replaces m.1 (join vd m.1) }
    refine ⟨g', ?_, ?_, ?_, ?_⟩
    · have hpm := hp m List.mem_cons_self
      simp only [flags, List.flatMap_cons, List.cons_append, List.nil_append, editAll, edit_require hpm, Option.bind_some, edit_replace hpm]
      exact h1
    · intro q
      rw [h2 q]
      simp only [mem_setRequire, List.mem_cons, List.map_cons, not_or]
      constructor
      · rintro (h | ⟨h, h' | ⟨h', h''⟩⟩)
        · exact .inl (.inr h)
        · exact .inl (.inl h')
        · exact .inr ⟨⟨h', h⟩, h''⟩
      · rintro ((h | h) | ⟨⟨h, h'⟩, h''⟩)
        · refine .inr ⟨?_, .inl h⟩
          rw [h]; exact hn.1
        · exact .inl h
        · exact .inr ⟨h', .inr ⟨h, h''⟩⟩
    · intro q
      rw [h3 q]
      simp only [mem_setReplace, List.mem_cons, List.map_cons, not_or]
      constructor
      · rintro (⟨x, hx, h⟩ | ⟨h, h' | ⟨h', h''⟩⟩)
        · exact .inl ⟨x, .inr hx, h⟩
        · exact .inl ⟨m, .inl rfl, h'⟩
        · exact .inr ⟨⟨h', h⟩, h''⟩
      · rintro (⟨x, rfl | hx, h⟩ | ⟨⟨h, h'⟩, h''⟩)
        · refine .inr ⟨?_, .inl h⟩
          rw [h]; exact hn.1
        · exact .inl ⟨x, hx, h⟩
        · exact .inr ⟨h', .inr ⟨h, h''⟩⟩
    · intro y hy
      simp only [List.map_cons, List.mem_cons, not_or] at hy
      rw [h4 y hy.2, filter_setReplace hy.1]

/-! ### From modules.txt to go.mod -/

/-- No module that provides packages is replaced by another module or by an absolute directory. -/
def OnlyLocal (mods : List Module) : Prop := ∀ m ∈ mods, m.pkgs ≠ [] → ∀ p v, m.repl = some (p, v) → LocalDir p

theorem isLocal_of {p : Str} (h : LocalDir p) : isLocalReplace p = true := by
  simp only [isLocalReplace, Bool.or_eq_true, decide_eq_true_eq, List.isPrefixOf_iff_prefix]
  rcases h with h | h | ⟨r, rfl⟩ | ⟨r, rfl⟩
  · exact .inl (.inl (.inl h))
  · exact .inl (.inl (.inr h))
  · exact .inl (.inr (List.prefix_append _ _))
  · exact .inr (List.prefix_append _ _)

theorem used_eq {mods : List Module} {extras : List Extra} (h : FileWF isSpace Ver mods extras) (hl : OnlyLocal mods) {m : Module}
    (hm : m ∈ mods) (hk : m.pkgs ≠ []) :
    usedPath (parseVendor (fileText mods extras)) { path := m.path, version := m.version } = m.path ∧
    usedVersion { path := m.path, version := m.version } = m.version := by
  obtain ⟨h1, _⟩ := (C70_parse h).2 m hm
  refine ⟨?_, if_neg (h.wf m hm).version.1.1⟩
  simp only [usedPath, h1]
  cases hr : m.repl with
  | none => simp
  | some r =>
    obtain ⟨p, v⟩ := r
    simp [isLocal_of (hl m hm hk p v hr)]

/-- The modules that provide packages, by path and version. -/
def provided (mods : List Module) : List (Str × Str) := (providers mods).map (fun m => (m.path, m.version))

theorem flags_eq {mods : List Module} {extras : List Extra} (h : FileWF isSpace Ver mods extras) (hl : OnlyLocal mods) (vd : Str) :
    (parseVendor (fileText mods extras)).list.flatMap (flagsOf vd (parseVendor (fileText mods extras))) = flags vd (provided mods) := by
  rw [(C70_parse h).1]
  simp only [flags, provided, List.flatMap_map, List.flatMap_def, List.map_map]
  congr 1
  refine List.map_congr_left (fun m hm => ?_)
  simp only [List.mem_filter, decide_eq_true_eq] at hm
  obtain ⟨u1, u2⟩ := used_eq h hl hm.1 hm.2
  simp only [Function.comp_apply, flagsOf, u1, u2]

theorem provided_nodup {mods : List Module} (h : (mods.map (·.path)).Nodup) : ((provided mods).map (·.1)).Nodup := by
  rw [provided, List.map_map]
  exact List.Nodup.sublist (List.Sublist.map _ (List.filter_sublist)) h

theorem mem_provided {mods : List Module} {q : Str × Str} : q ∈ provided mods ↔ ∃ m ∈ mods, m.pkgs ≠ [] ∧ q = (m.path, m.version) := by
  simp only [provided, providers, List.mem_map, List.mem_filter, decide_eq_true_eq]
  constructor
  · rintro ⟨m, ⟨h1, h2⟩, rfl⟩; exact ⟨m, h1, h2, rfl⟩
  · rintro ⟨m, h1, h2, rfl⟩; exact ⟨m, ⟨h1, h2⟩, rfl⟩

theorem runtime_ok : PathOK runtimeModule := ⟨by decide, by decide⟩

/-- The go.mod that is built with: the vendored modules that provide packages at their versions, replaced by their directories, the
xgo runtime, and everything else as it was. -/
theorem final_gomod {mods : List Module} {extras : List Extra} (h : FileWF isSpace Ver mods extras) (hl : OnlyLocal mods)
    (hp : ∀ m ∈ mods, PathOK m.path) (E : Env) (hmain : E.mainModule ≠ runtimeModule) (g : GoMod) :
    ∃ g', editAll g (edits E (parseVendor (fileText mods extras))).flatten = some g' ∧
      (∀ q, q ∈ g'.requires ↔ q = (runtimeModule, E.xgoVersion) ∨
        (q.1 ≠ runtimeModule ∧ (q ∈ provided mods ∨ (q.1 ∉ (provided mods).map (·.1) ∧ q ∈ g.requires)))) ∧
      (∀ q, q ∈ g'.replaces ↔ q = (runtimeModule, none, E.tmpRuntime) ∨
        (q.1 ≠ runtimeModule ∧ ((∃ m ∈ provided mods, q = (m.1, none, join E.vendorDir m.1)) ∨
          (q.1 ∉ (provided mods).map (·.1) ∧ q ∈ g.replaces)))) ∧
      (∀ y, y ≠ runtimeModule → y ∉ (provided mods).map (·.1) →
        g'.replaces.filter (fun q => q.1 == y) = g.replaces.filter (fun q => q.1 == y)) := by
  have hf : (if (parseVendor (fileText mods extras)).list = [] then [] else
      splitArgsBatch ((parseVendor (fileText mods extras)).list.flatMap (flagsOf E.vendorDir (parseVendor (fileText mods extras)))) 100).flatten
      = flags E.vendorDir (provided mods) := by
    split
    · next h0 => rw [← flags_eq h hl, h0]; rfl
    · rw [(C70_batches (by decide)).1, flags_eq h hl]
  obtain ⟨g1, h1, h2, h3, h4⟩ := editAll_flags (vd := E.vendorDir) (ms := provided mods) (fun q hq => by
    obtain ⟨m, hm, _, rfl⟩ := mem_provided.1 hq
    exact hp m hm) (provided_nodup h.onePath) g
  have key : ∃ gl, editAll g1 (if E.mainModule = runtimeModule then [] else
      [[ "-require=".toList ++ runtimeModule ++ '@' :: E.xgoVersion, "-replace=".toList ++ runtimeModule ++ '=' :: E.tmpRuntime ] ++
        (if E.setGo then ["-go=".toList ++ E.toolchain] else [])]).flatten =
      some { requires := setRequire g1.requires runtimeModule E.xgoVersion, replaces := setReplace g1.replaces runtimeModule E.tmpRuntime,
             goLine := gl } := by
    rw [if_neg hmain]
    simp only [List.flatten_cons, List.flatten_nil, List.append_nil, List.cons_append, List.nil_append]
    simp only [editAll, edit_require runtime_ok, edit_replace runtime_ok, Option.bind_some]
    cases E.setGo with
    | false => exact ⟨_, rfl⟩
    | true =>
      simp only [if_true, editAll, edit_go, Option.bind_some]
      exact ⟨_, rfl⟩
  obtain ⟨gl, hk⟩ := key
  refine ⟨{ requires := setRequire g1.requires runtimeModule E.xgoVersion, replaces := setReplace g1.replaces runtimeModule E.tmpRuntime,
            goLine := gl }, ?_, ?_, ?_, ?_⟩
  · rw [edits, List.flatten_append, hf, editAll_append, h1, Option.bind_some, hk]
  · intro q
    simp only [mem_setRequire, h2]
  · intro q
    simp only [mem_setReplace, h3]
  · intro y hy hy'
    simp only [filter_setReplace hy, h4 y hy']

theorem rootOf_congr {g g' : GoMod} {y : Str} (h : g'.replaces.filter (fun q => q.1 == y) = g.replaces.filter (fun q => q.1 == y))
    (cache : Str → Str → Str) (v : Str) : rootOf g' cache y v = rootOf g cache y v := by
  have e : ∀ l : List (Str × Option Str × Str), l.find? (fun q => q.1 == y && q.2.1.isNone) =
      (l.filter (fun q => q.1 == y)).find? (fun q => q.2.1.isNone) := by
    intro l
    rw [List.find?_filter]
    congr 1
    funext q
    by_cases hq : q.1 = y
    · cases hn : q.2.1 <;> simp [hq]
    · simp [hq]
  simp only [rootOf, e, h]

/-! ### Where the packages are found -/

theorem rootOf_eq {g : GoMod} {cache : Str → Str → Str} {p v t : Str} (h1 : (p, none, t) ∈ g.replaces)
    (h2 : ∀ q ∈ g.replaces, q.1 = p → q = (p, none, t)) : rootOf g cache p v = t := by
  simp only [rootOf]
  cases hf : g.replaces.find? (fun q => q.1 == p && q.2.1.isNone) with
  | none =>
    rw [List.find?_eq_none] at hf
    exact absurd (by simp) (hf _ h1)
  | some q =>
    have hq := List.find?_some hf
    simp only [Bool.and_eq_true, beq_iff_eq] at hq
    have := h2 q (List.mem_of_find?_eq_some hf) hq.1
    rw [this]

/-- Prefixes of the same text. -/
theorem prefix_split {a b x y : Str} (h : a ++ x = b ++ y) (hl : a.length < b.length) : ∃ c, c ≠ [] ∧ b = a ++ c ∧ x = c ++ y := by
  rcases List.append_eq_append_iff.1 h with ⟨c, h1, h2⟩ | ⟨c, h1, h2⟩
  · refine ⟨c, fun e => ?_, h1, h2⟩
    rw [e, List.append_nil] at h1
    rw [h1] at hl; omega
  · have := congrArg List.length h1
    rw [List.length_append] at this; omega

theorem exists_longest {l : List Str} {P : Str → Prop} {x : Str} (hx : x ∈ l) (hp : P x) :
    ∃ y ∈ l, P y ∧ ∀ z ∈ l, P z → z.length ≤ y.length := by
  induction l generalizing x with
  | nil => cases hx
  | cons a l ih =>
    by_cases hl : ∃ y ∈ l, P y
    · obtain ⟨y, hy, hpy⟩ := hl
      obtain ⟨w, hw, hpw, hmax⟩ := ih hy hpy
      by_cases ha : P a ∧ w.length < a.length
      · refine ⟨a, List.mem_cons_self, ha.1, fun z hz hpz => ?_⟩
        rcases List.mem_cons.1 hz with rfl | hz
        · exact Nat.le_refl _
        · have := hmax z hz hpz; omega
      · refine ⟨w, List.mem_cons_of_mem _ hw, hpw, fun z hz hpz => ?_⟩
        rcases List.mem_cons.1 hz with rfl | hz
        · exact Nat.le_of_not_lt (fun h => ha ⟨hpz, h⟩)
        · exact hmax z hz hpz
    · rcases List.mem_cons.1 hx with rfl | hx
      · refine ⟨x, List.mem_cons_self, hp, fun z hz hpz => ?_⟩
        rcases List.mem_cons.1 hz with rfl | hz
        · exact Nat.le_refl _
        · exact absurd ⟨z, hz, hpz⟩ hl
      · exact absurd ⟨x, hx, hp⟩ hl

theorem placeholder_keys {mods : List Module} {extras : List Extra} (h : FileWF isSpace Ver mods extras) (hl : OnlyLocal mods) (E : Env) :
    (placeholders E (parseVendor (fileText mods extras))).map (·.1) =
      ((provided mods).map (·.1)).map (fun p => join (join E.vendorDir p) "go.mod".toList) := by
  rw [placeholders, (C70_parse h).1, provided]
  simp only [List.map_map]
  refine List.map_congr_left (fun m hm => ?_)
  simp only [List.mem_filter, decide_eq_true_eq] at hm
  obtain ⟨u1, _⟩ := used_eq h hl hm.1 hm.2
  simp only [Function.comp_apply, placeholder, u1]

theorem join_inj {d a b : Str} (h : join d a = join d b) : a = b := by
  have := List.append_cancel_left h
  cases this; rfl

theorem join_inj_left {a b c : Str} (h : join a c = join b c) : a = b := by
  exact List.append_cancel_right h

/-- What go sees: the disk and the placeholders in the overlay. -/
def seen (disk : World) (overlay : List (Str × Str)) : World where
  goModIn d := disk.goModIn d ∨ join d "go.mod".toList ∈ overlay.map (·.1)
  goFilesIn := disk.goFilesIn

theorem provides_seen {disk : World} {o : List (Str × Str)} {path root p d : Str} (h : Provides (seen disk o) path root p d) :
    Provides disk path root p d := by
  obtain ⟨rest, h1, h2, h3, h4, h5⟩ := h
  exact ⟨rest, h1, h2, h3, h4, fun a b e1 e2 e3 e4 hg => h5 a b e1 e2 e3 e4 (.inl hg)⟩

/-- **C70**: a vendored package is compiled from the vendor directory.  xgo builds with an edited copy of go.mod and an overlay of
placeholder go.mod files; with these go finds the package in exactly one module, in its directory below vendor.
Assumed of the disk: the files of the package are there, there are no go.mod files below vendor (go mod vendor copies none), and
neither the main module nor a required module that is not vendored has the package.  The package is not one of the xgo runtime.
No module with packages is replaced by another module or an absolute directory: see `Wrong`. -/
theorem C70_taken_from_vendor_partial {mods : List Module} {extras : List Extra} (h : FileWF isSpace Ver mods extras) (hl : OnlyLocal mods)
    (hp : ∀ m ∈ mods, '@' ∉ m.path ∧ '=' ∉ m.path) (E : Env) (hmain : E.mainModule ≠ "github.com/xhd2015/xgo/runtime".toList) (g : GoMod) (disk : World)
    (cache : Str → Str → Str) (mainDir : Str)
    {m : Module} (hm : m ∈ mods) {p : Str} (hpk : p ∈ m.pkgs) {rest : Str} (hrest : p = m.path ++ rest) (hr : Rest rest)
    (hfiles : disk.goFilesIn (join E.vendorDir p))
    (hnomod : ∀ s, ¬ disk.goModIn (join E.vendorDir s))
    (hother : ∀ q ∈ g.requires, (∀ x ∈ mods, x.pkgs ≠ [] → q.1 ≠ x.path) → ∀ d, ¬ Provides disk q.1 (rootOf g cache q.1 q.2) p d)
    (hmainp : ∀ d, ¬ Provides disk E.mainModule mainDir p d)
    (hrt : ∀ r, Rest r → p ≠ "github.com/xhd2015/xgo/runtime".toList ++ r) :
    ∃ g', editAll g (edits E (parseVendor (fileText mods extras))).flatten = some g' ∧
      TakenFrom (seen disk (placeholders E (parseVendor (fileText mods extras)))) (modules g' cache E.mainModule mainDir) p (join E.vendorDir p) := by
  have hmain : E.mainModule ≠ runtimeModule := hmain
  have hrt : ∀ r, Rest r → p ≠ runtimeModule ++ r := hrt
  obtain ⟨g', h1, h2, h3, h4⟩ := final_gomod h hl hp E hmain g
  refine ⟨g', h1, ?_⟩
  have hkeys := placeholder_keys h hl E
  have hmp : m.path ∈ (provided mods).map (·.1) :=
    List.mem_map.2 ⟨(m.path, m.version), mem_provided.2 ⟨m, hm, List.ne_nil_of_mem hpk, rfl⟩, rfl⟩
  obtain ⟨q, hq, ⟨qr, hqr, hqrr⟩, hmax⟩ := exists_longest (P := fun x => ∃ r, p = x ++ r ∧ Rest r) hmp ⟨rest, hrest, hr⟩
  have hroot : ∀ x ∈ (provided mods).map (·.1), x ≠ runtimeModule → ∀ v, rootOf g' cache x v = join E.vendorDir x := by
    intro x hx hxr v
    obtain ⟨y, hy, rfl⟩ := List.mem_map.1 hx
    refine rootOf_eq ((h3 _).2 (.inr ⟨hxr, .inl ⟨y, hy, rfl⟩⟩)) ?_
    intro z hz hzx
    rcases (h3 z).1 hz with hz | ⟨_, ⟨w, hw, rfl⟩ | ⟨hz, _⟩⟩
    · rw [hz] at hzx; exact absurd hzx.symm hxr
    · simp only at hzx; rw [hzx]
    · exact absurd (hzx ▸ hx) hz
  have hqne : q ≠ runtimeModule := fun e => hrt qr hqrr (e ▸ hqr)
  obtain ⟨⟨q1, qv⟩, hqv, hq1⟩ := List.mem_map.1 hq
  simp only at hq1
  subst hq1
  have hmem : (q1, join E.vendorDir q1) ∈ modules g' cache E.mainModule mainDir := by
    refine List.mem_cons_of_mem _ (List.mem_map.2 ⟨(q1, qv), (h2 _).2 (.inr ⟨hqne, .inl hqv⟩), ?_⟩)
    simp only [hroot q1 hq hqne]
  have hd : join E.vendorDir q1 ++ qr = join E.vendorDir p := by
    rw [hqr]; simp [join]
  refine ⟨_, hmem, ⟨qr, hqr, hqrr, hd.symm, hfiles, ?_⟩, ?_⟩
  · intro a b hab ha hra hrb hg
    have ea : join E.vendorDir q1 ++ a = join E.vendorDir (q1 ++ a) := by simp [join]
    rw [ea] at hg
    rcases hg with hg | hg
    · exact hnomod _ hg
    · rw [hkeys, List.mem_map] at hg
      obtain ⟨x, hx, he⟩ := hg
      have hxe := join_inj (join_inj_left he)
      have := hmax x hx ⟨b, by rw [hxe, hqr, hab, List.append_assoc], hrb⟩
      rw [hxe, List.length_append] at this
      have : a.length ≠ 0 := fun e => ha (List.length_eq_zero_iff.1 e)
      omega
  · rintro ⟨mp, mr⟩ hm' d' hd'
    rcases List.mem_cons.1 hm' with e | hm'
    · cases e
      exact absurd (provides_seen hd') (hmainp d')
    · obtain ⟨⟨y1, y2⟩, hy, e⟩ := List.mem_map.1 hm'
      simp only [Prod.mk.injEq] at e
      obtain ⟨rfl, rfl⟩ := e
      rcases (h2 (y1, y2)).1 hy with hy | ⟨hyr, hy | ⟨hy, hyg⟩⟩
      · cases hy
        obtain ⟨r, hr1, hr2, _⟩ := hd'
        exact absurd hr1 (hrt r hr2)
      · -- a vendored module
        have hyp : y1 ∈ (provided mods).map (·.1) := List.mem_map.2 ⟨_, hy, rfl⟩
        rw [hroot y1 hyp hyr] at hd' ⊢
        obtain ⟨r, hr1, hr2, hr3, hr4, hr5⟩ := hd'
        by_cases hyq : y1 = q1
        · subst hyq
          have : r = qr := List.append_cancel_left (hr1.symm.trans hqr)
          rw [this, hd] at hr3
          exact ⟨rfl, hr3⟩
        · exfalso
          have hle := hmax y1 hyp ⟨r, hr1, hr2⟩
          have hlt : y1.length < q1.length := by
            rcases Nat.lt_or_ge y1.length q1.length with hlt | hge
            · exact hlt
            · exfalso
              have hlen : y1.length = q1.length := by omega
              exact hyq (List.append_inj (hr1.symm.trans hqr) hlen).1
          obtain ⟨c, hc0, hc1, hc2⟩ := prefix_split (hr1.symm.trans hqr) hlt
          have hrc : Rest c := by
            cases c with
            | nil => exact absurd rfl hc0
            | cons c1 c2 =>
              rcases hr2 with h0 | h0
              · rw [h0] at hc2; cases hc2
              · rw [hc2] at h0; exact .inr h0
          refine hr5 c qr hc2 hc0 hrc hqrr (.inr ?_)
          rw [hkeys, List.mem_map]
          exact ⟨q1, hq, by rw [hc1]; simp [join]⟩
      · -- another module
        exfalso
        refine hother (y1, y2) hyg (fun x hx hxp e => hy ?_) d' ?_
        · exact List.mem_map.2 ⟨(x.path, x.version), mem_provided.2 ⟨x, hx, hxp, rfl⟩, e.symm⟩
        · rw [← rootOf_congr (h4 y1 hyr hy) cache y2]
          exact provides_seen hd'

/-- **C70**: nothing else changes in go.mod: a module that provides no vendored package, and is not the xgo runtime, is required and
replaced as before. -/
theorem C70_others_untouched {mods : List Module} {extras : List Extra} (h : FileWF isSpace Ver mods extras) (hl : OnlyLocal mods)
    (hp : ∀ m ∈ mods, '@' ∉ m.path ∧ '=' ∉ m.path) (E : Env) (hmain : E.mainModule ≠ "github.com/xhd2015/xgo/runtime".toList) (g : GoMod) :
    ∃ g', editAll g (edits E (parseVendor (fileText mods extras))).flatten = some g' ∧
      ∀ q : Str, q ≠ "github.com/xhd2015/xgo/runtime".toList → (∀ m ∈ mods, m.pkgs ≠ [] → q ≠ m.path) →
        (∀ v, (q, v) ∈ g'.requires ↔ (q, v) ∈ g.requires) ∧ (∀ v t, (q, v, t) ∈ g'.replaces ↔ (q, v, t) ∈ g.replaces) := by
  have hmain : E.mainModule ≠ runtimeModule := hmain
  obtain ⟨g', h1, h2, h3, _⟩ := final_gomod h hl hp E hmain g
  refine ⟨g', h1, fun q hq hm => ?_⟩
  have hn : q ∉ (provided mods).map (·.1) := by
    intro hc
    obtain ⟨x, hx, rfl⟩ := List.mem_map.1 hc
    obtain ⟨m, hmm, hk, rfl⟩ := mem_provided.1 hx
    exact hm m hmm hk rfl
  refine ⟨fun v => ?_, fun v t => ?_⟩
  · rw [h2]
    constructor
    · rintro (h | ⟨_, h | ⟨_, h⟩⟩)
      · cases h; exact absurd rfl hq
      · exact absurd (List.mem_map.2 ⟨_, h, rfl⟩) hn
      · exact h
    · exact fun h => .inr ⟨hq, .inr ⟨hn, h⟩⟩
  · rw [h3]
    constructor
    · rintro (h | ⟨_, ⟨m, hmm, h⟩ | ⟨_, h⟩⟩)
      · cases h; exact absurd rfl hq
      · cases h; exact absurd (List.mem_map.2 ⟨_, hmm, rfl⟩) hn
      · exact h
    · exact fun h => .inr ⟨hq, .inr ⟨hn, h⟩⟩

/-- **C70**: each vendored module with packages has a placeholder go.mod that names the module and the language version recorded in
modules.txt. What is missing: modules without a recorded language version, see `Wrong.C70_language`. -/
theorem C70_language_partial {mods : List Module} {extras : List Extra} (h : FileWF isSpace Ver mods extras) (hl : OnlyLocal mods) (E : Env)
    {m : Module} (hm : m ∈ mods) (hk : m.pkgs ≠ []) (hg : m.goVersion ≠ none) :
    (join (join E.vendorDir m.path) "go.mod".toList, "module ".toList ++ m.path ++ "\ngo ".toList ++ langVersion m ++ "\n".toList) ∈
      placeholders E (parseVendor (fileText mods extras)) := by
  obtain ⟨u1, _⟩ := used_eq h hl hm hk
  obtain ⟨h1, h2⟩ := C70_parse h
  rw [placeholders, h1, List.map_map, List.mem_map]
  refine ⟨m, List.mem_filter.2 ⟨hm, by simp [hk]⟩, ?_⟩
  cases hgv : m.goVersion with
  | none => exact absurd hgv hg
  | some gv =>
    have hne : gv ≠ [] := ((h.wf m hm).goVersion gv hgv).1.1
    simp only [Function.comp_apply, placeholder, u1, (h2 m hm).1, hgv, Option.getD_some, if_neg hne, langVersion]

/-- **C70**: if a vendored module provides a package then go is told not to use the vendor directory itself. -/
theorem C70_mod_flag {mods : List Module} {extras : List Extra} (h : FileWF isSpace Ver mods extras) (hk : ∃ m ∈ mods, m.pkgs ≠ []) :
    modFlag (parseVendor (fileText mods extras)) = "mod".toList := by
  obtain ⟨m, hm, hk⟩ := hk
  rw [modFlag, if_neg]
  rw [(C70_parse h).1]
  intro e
  rw [List.map_eq_nil_iff] at e
  have : m ∈ mods.filter (fun m => m.pkgs ≠ []) := List.mem_filter.2 ⟨hm, by simp [hk]⟩
  rw [e] at this; cases this

/-! ### Example -/

namespace Demo

def mods : List Module :=
  [ { path := "a.com/x".toList, version := "v1.2.3".toList, explicit := true, goVersion := some "1.21".toList,
      pkgs := ["a.com/x/p".toList, "a.com/x/y/z".toList] },
    { path := "a.com/x/y".toList, version := "v0.1.0".toList, repl := some ("../y".toList, none), pkgs := ["a.com/x/y".toList] },
    { path := "b.com/none".toList, version := "v1.0.0".toList, explicit := true } ]

def extras : List Extra := [{ path := "a.com/x/y".toList, repl := ("../y".toList, none) }]

theorem ver {s : Str} (h : Support.Semver.isValidSemVer s = true) : Ver s := ver_iff.2 h

/-- Non-vacuity of `FileWF`. -/
theorem wf : FileWF isSpace Ver mods extras where
  wf := by
    intro m hm
    simp only [mods, List.mem_cons, List.not_mem_nil, or_false] at hm
    rcases hm with rfl | rfl | rfl
    · exact ⟨⟨by decide, by decide⟩, ⟨⟨by decide, by decide⟩, ver (by decide +kernel)⟩, fun _ _ h => (by cases h),
        fun g h => (by cases h; exact ⟨⟨by decide, by decide⟩, by decide⟩), (by unfold Word; decide)⟩
    · exact ⟨⟨by decide, by decide⟩, ⟨⟨by decide, by decide⟩, ver (by decide +kernel)⟩,
        fun _ _ h => (by cases h; exact ⟨⟨by decide, by decide⟩, fun _ h => (by cases h)⟩), fun g h => (by cases h), (by unfold Word; decide)⟩
    · exact ⟨⟨by decide, by decide⟩, ⟨⟨by decide, by decide⟩, ver (by decide +kernel)⟩, fun _ _ h => (by cases h), fun g h => (by cases h),
        (by unfold Word; decide)⟩
  extraWF := by
    intro e he
    simp only [extras, List.mem_cons, List.not_mem_nil, or_false] at he
    subst he
    exact ⟨⟨by decide, by decide⟩, fun _ h => (by cases h), ⟨by decide, by decide⟩, fun _ h => (by cases h)⟩
  onePath := by decide
  onePkg := by decide
  extra := by decide

theorem onlyLocal : OnlyLocal mods := by
  intro m hm _ p v h
  simp only [mods, List.mem_cons, List.not_mem_nil, or_false] at hm
  rcases hm with rfl | rfl | rfl
  · cases h
  · cases h; exact .inr (.inr (.inr ⟨"y".toList, rfl⟩))
  · cases h

def env : Env where
  vendorDir := "/p/vendor".toList
  toolchain := "1.22".toList
  setGo := false
  mainModule := "m".toList
  xgoVersion := "v1.1.0".toList
  tmpRuntime := "/tmp/rt".toList

def gomod : GoMod where
  requires := [("a.com/x".toList, "v1.2.3".toList), ("b.com/none".toList, "v1.0.0".toList)]
  replaces := [("a.com/x/y".toList, none, "../y".toList)]

def disk : World where
  goModIn d := d = "/p".toList
  goFilesIn d := d ∈ ["/p".toList, "/p/vendor/a.com/x/p".toList, "/p/vendor/a.com/x/y".toList, "/p/vendor/a.com/x/y/z".toList]

/-- Non-vacuity of `C70_taken_from_vendor_partial`: the package a.com/x/y/z of the module a.com/x is found, though below the directory of
the module a.com/x/y. -/
example : ∃ g', editAll gomod (edits env (parseVendor (fileText mods extras))).flatten = some g' ∧
    TakenFrom (seen disk (placeholders env (parseVendor (fileText mods extras)))) (modules g' (fun p _ => "/cache/".toList ++ p) "m".toList "/p".toList)
      "a.com/x/y/z".toList "/p/vendor/a.com/x/y/z".toList :=
  C70_taken_from_vendor_partial wf onlyLocal (by decide) env (by decide) gomod disk _ _ (m := mods[0]) (by simp [mods])
    (by decide) (rest := "/y/z".toList) (by decide) (.inr rfl) (by unfold disk; decide +kernel)
    (fun s h => absurd (show some '/' = none from congrArg (fun l : Str => l[2]?) h) (by simp))
    (by
      intro q hq hn d
      simp only [gomod, List.mem_cons, List.not_mem_nil, or_false] at hq
      rcases hq with rfl | rfl
      · exact absurd rfl (hn mods[0] (by simp [mods]) (by decide))
      · rintro ⟨r, h, _⟩; exact absurd (show 'a' = 'b' from Option.some.inj (congrArg List.head? h)) (by decide))
    (by rintro d ⟨r, h, _⟩; exact absurd (show 'a' = 'm' from Option.some.inj (congrArg List.head? h)) (by decide))
    (fun r _ h => absurd (show 'a' = 'g' from Option.some.inj (congrArg List.head? h)) (by decide))

example : (parseVendor (fileText mods extras)).list = [⟨"a.com/x".toList, "v1.2.3".toList⟩, ⟨"a.com/x/y".toList, "v0.1.0".toList⟩] := by decide +kernel

example : splitArgsBatch (List.replicate 205 ['x']) 100 = [List.replicate 100 ['x'], List.replicate 100 ['x'], List.replicate 5 ['x']] := by decide +kernel

end Demo

/-! ### Counterexamples -/

namespace Wrong

def fork : List Module := [{ path := "a.com/x".toList, version := "v1.2.3".toList, repl := some ("fork.com/x".toList, some "v1.2.4".toList), pkgs := ["a.com/x".toList] }]

def env : Env := Demo.env

/-- **C70** is false of the code for a module that is replaced by another one: go mod vendor puts it below vendor under its own path,
but xgo requires and replaces the path of the replacement, with a directory that does not exist.  The module that is imported keeps
its replacement, which is not below vendor. -/
theorem C70_fork : editAll { requires := [("a.com/x".toList, "v1.2.3".toList)], replaces := [("a.com/x".toList, none, "fork.com/x v1.2.4".toList)] }
      (edits env (parseVendor (fileText fork []))).flatten =
    some { requires := [("a.com/x".toList, "v1.2.3".toList), ("fork.com/x".toList, "v1.2.3".toList), (runtimeModule, "v1.1.0".toList)]
           replaces := [("a.com/x".toList, none, "fork.com/x v1.2.4".toList), ("fork.com/x".toList, none, "/p/vendor/fork.com/x".toList),
             (runtimeModule, none, "/tmp/rt".toList)] } := by decide +kernel

/-- **C70** is false of the code for a module that is replaced by an absolute directory, for the same reason. -/
theorem C70_absolute : ("-require=/home/x@v1.2.3".toList) ∈
    (edits env (parseVendor (fileText [{ path := "a.com/x".toList, version := "v1.2.3".toList, repl := some ("/home/x".toList, none), pkgs := ["a.com/x".toList] }] []))).flatten := by decide +kernel

/-- **C70** (language version) is false of the code for a module with no recorded language version: it is compiled with that of the
toolchain, where go would use 1.16.  With 1.22 the loop variables differ. -/
theorem C70_language : placeholders env (parseVendor (fileText [{ path := "a.com/x".toList, version := "v1.2.3".toList, pkgs := ["a.com/x".toList] }] [])) =
      [("/p/vendor/a.com/x/go.mod".toList, "module a.com/x\ngo 1.22\n".toList)] ∧
    langVersion { path := "a.com/x".toList, version := "v1.2.3".toList, pkgs := ["a.com/x".toList] } = "1.16".toList :=
  ⟨by decide +kernel, rfl⟩

/-- **C70** is false of the code below the root of the project: the vendor directory is looked for in the directory where xgo runs,
not in that of go.mod. -/
theorem C70_subdirectory : getVendorDir (fun d => d = "/p/vendor".toList) "/p".toList = some "/p/vendor".toList ∧
    getVendorDir (fun d => d = "/p/vendor".toList) "/p/sub".toList = none := ⟨by decide, by decide⟩

/-- A vendor directory without packages: go is not told to use modules, and finds the vendor directory inconsistent with the edited
go.mod. -/
theorem C70_no_packages : modFlag (parseVendor (fileText [{ path := "a.com/x".toList, version := "v1.2.3".toList, explicit := true }] [])) = [] := by
  decide +kernel

end Wrong

end Verif.Cmd.Vendor
