import Verif.Cmd.HandoffSpec

/-!
# C96: the selection reaches the compiler
-/

namespace Verif.Cmd.Handoff

open Verif.Instrument.FuncTrap (TrapFile trapSum)

/-- A map filled in a loop, read back. -/
theorem lookup_fill {α β : Type} (key : α → Str) (val : α → β) (l : List α) (hn : (l.map key).Nodup) :
    ∀ (m : List (Str × β)) (k : Str) (v : β),
      (l.foldl (fun m a => (key a, val a) :: m) m).lookup k = some v ↔
        (∃ a ∈ l, key a = k ∧ val a = v) ∨ (k ∉ l.map key ∧ m.lookup k = some v) := by
  induction l with
  | nil => intro m k v; simp
  | cons a l ih =>
    intro m k v
    rw [List.map_cons, List.nodup_cons] at hn
    rw [List.foldl_cons, ih hn.2]
    by_cases hk : k = key a
    · have h1 : ((key a, val a) :: m).lookup k = some (val a) := by rw [hk]; simp [List.lookup]
      rw [h1]
      constructor
      · rintro (⟨b, hb, e, h⟩ | ⟨_, h⟩)
        · exact .inl ⟨b, List.mem_cons_of_mem _ hb, e, h⟩
        · exact .inl ⟨a, List.mem_cons_self, hk.symm, Option.some.inj h⟩
      · rintro (⟨b, hb, e, h⟩ | ⟨hx, _⟩)
        · rcases List.mem_cons.mp hb with rfl | hb
          · exact .inr ⟨hk ▸ hn.1, by rw [h]⟩
          · exact .inl ⟨b, hb, e, h⟩
        · exact absurd (by rw [hk, List.map_cons]; exact List.mem_cons_self) hx
    · have h1 : ((key a, val a) :: m).lookup k = m.lookup k := by
        rw [List.lookup]
        rw [show (k == key a) = false from beq_eq_false_iff_ne.mpr hk]
      rw [h1]
      constructor
      · rintro (⟨b, hb, e, h⟩ | ⟨hx, h⟩)
        · exact .inl ⟨b, List.mem_cons_of_mem _ hb, e, h⟩
        · refine .inr ⟨?_, h⟩
          rw [List.map_cons]
          intro hm
          rcases List.mem_cons.mp hm with e | hm
          · exact hk e
          · exact hx hm
      · rintro (⟨b, hb, e, h⟩ | ⟨hx, h⟩)
        · rcases List.mem_cons.mp hb with rfl | hb
          · exact absurd e.symm hk
          · exact .inl ⟨b, hb, e, h⟩
        · rw [List.map_cons] at hx
          exact .inr ⟨fun hm => hx (List.mem_cons_of_mem _ hm), h⟩

theorem lookup_mapping {s : Selection} (hs : (s.map (·.path)).Nodup) (k : Str) (v : PkgMapping) :
    (buildMapping s).lookup k = some v ↔ ∃ p ∈ s, p.path = k ∧ buildPkg p = v := by
  rw [buildMapping, lookup_fill (fun p : Package => p.path) buildPkg s hs]
  constructor
  · rintro (h | ⟨_, h⟩)
    · exact h
    · cases h
  · exact .inl

theorem lookup_files {p : Package} (hp : (p.files.map (·.name)).Nodup) (k : Str) (v : FileMapping) :
    (buildPkg p).files.lookup k = some v ↔ ∃ f ∈ p.files, f.name = k ∧ buildFile f = v := by
  rw [buildPkg]
  rw [lookup_fill (fun f : TrapFile => f.name) buildFile p.files hp]
  constructor
  · rintro (h | ⟨_, h⟩)
    · exact h
    · cases h
  · exact .inl

theorem lookup_sums {hash : Str → Str} {s : Selection} (hs : (s.map (·.path)).Nodup) (k : Str) (v : Str) :
    (buildSums hash s).lookup k = some v ↔
      ∃ p ∈ s, p.path = k ∧ trapSum hash p.files p.hasVarTrap = v := by
  rw [buildSums, lookup_fill (fun p : Package => p.path) (fun p => trapSum hash p.files p.hasVarTrap) s hs]
  constructor
  · rintro (h | ⟨_, h⟩)
    · exact h
    · cases h
  · exact .inl

/-- What `getFuncDecls` finds. -/
theorem mem_getFuncDecls (m : List (Str × FileMapping)) (n : Str) (d : Decl) : ∀ src : List CFile,
    (n, d) ∈ getFuncDecls m src ↔
      ∃ f ∈ src, f.name = n ∧ d ∈ f.decls ∧ ∃ fm, m.lookup f.pos = some fm ∧ takes fm d = true := by
  intro src
  induction src with
  | nil => simp [getFuncDecls]
  | cons f fs ih =>
    rw [getFuncDecls, List.mem_append, ih]
    constructor
    · rintro (h | ⟨g, hg, h⟩)
      · cases hl : m.lookup f.pos with
        | none => rw [hl] at h; cases h
        | some fm =>
          rw [hl] at h
          obtain ⟨d', hd', e⟩ := List.mem_map.mp h
          obtain ⟨hd1, hd2⟩ := List.mem_filter.mp hd'
          cases e
          exact ⟨f, List.mem_cons_self, rfl, hd1, fm, hl, hd2⟩
      · exact ⟨g, List.mem_cons_of_mem _ hg, h⟩
    · rintro ⟨g, hg, hn, hd, fm, hl, ht⟩
      rcases List.mem_cons.mp hg with rfl | hg
      · refine .inl ?_
        rw [hl]
        exact List.mem_map.mpr ⟨d, List.mem_filter.mpr ⟨hd, ht⟩, by rw [hn]⟩
      · exact .inr ⟨g, hg, hn, hd, fm, hl, ht⟩

theorem takes_iff (f : TrapFile) (d : Decl) : takes (buildFile f) d = true ↔
    d.takes = true ∧ (d.intf = false ∧ d.id ∈ f.funcs ∨ d.intf = true ∧ d.id ∈ f.interfaces) := by
  rw [takes, Bool.and_eq_true]
  refine and_congr_right fun _ => ?_
  cases d.intf with
  | true => simp [buildFile]
  | false => simp [buildFile]

/-- **C96 (partial), one compilation**: when the compiler reads the selection of a run, then in a package that is not a
command, in files without a `//line` directive above the `package` clause, it traps exactly the selected declarations. -/
theorem C96_told_partial (sel : Selection) (t : Target) (src : List CFile) (htidy : Spec.Tidy sel)
    (hc : t.command = false) (hp : Spec.Plain src) :
    Spec.AsSelected sel t src (trapped (some (buildMapping sel)) t src) := by
  intro n d
  have hseen : t.seen = t.path := by rw [Target.seen, hc]; rfl
  constructor
  · intro h
    rw [trapped] at h
    rw [hseen] at h
    cases hl : (buildMapping sel).lookup t.path with
    | none => rw [hl] at h; cases h
    | some pm =>
      rw [hl] at h
      obtain ⟨p, hpm, hpath, rfl⟩ := (lookup_mapping htidy.1 _ _).mp hl
      obtain ⟨f, hf, hn, hd, fm, hfm, ht⟩ := (mem_getFuncDecls _ n d src).mp h
      obtain ⟨g, hg, hgn, rfl⟩ := (lookup_files (htidy.2 p hpm) _ _).mp hfm
      obtain ⟨ht1, ht2⟩ := (takes_iff g d).mp ht
      exact ⟨⟨f, hf, hn, hd⟩, ht1, p, hpm, hpath, g, hg, by rw [hgn, hp f hf, hn], ht2⟩
  · rintro ⟨⟨f, hf, hn, hd⟩, ht, p, hpm, hpath, g, hg, hgn, hid⟩
    rw [trapped]
    rw [hseen, (lookup_mapping htidy.1 _ _).mpr ⟨p, hpm, hpath, rfl⟩]
    exact (mem_getFuncDecls _ n d src).mpr ⟨f, hf, hn, hd, buildFile g,
      (lookup_files (htidy.2 p hpm) _ _).mpr ⟨g, hg, by rw [hgn, hp f hf, hn], rfl⟩, (takes_iff g d).mpr ⟨ht, hid⟩⟩

/-- Nothing selected, nothing trapped. -/
theorem trapped_none (t : Target) (src : List CFile) : Spec.AsSelected [] t src (trapped none t src) := by
  intro n d
  constructor
  · intro h; cases h
  · rintro ⟨_, _, p, hp, _⟩; cases hp

end Verif.Cmd.Handoff
