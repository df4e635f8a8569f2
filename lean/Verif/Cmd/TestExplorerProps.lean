/-
C64: the tree of the test explorer, and what running an item of it runs.
-/
import Verif.Cmd.TestExplorerRun

namespace Verif.Cmd.Explorer
open Verif.Support (Str)

/-! ### Lists of items -/

theorem toList_ofList (l : List Item) : (Items.ofList l).toList = l := by
  induction l with
  | nil => rfl
  | cons i l ih => simp [Items.ofList, Items.toList, ih]

theorem mem_subPathsL (is : Items) (q : List Str) : q ∈ subPathsL is ↔ ∃ i ∈ is.toList, q ∈ subPaths i := by
  match is with
  | .nil => simp [subPathsL, Items.toList]
  | .cons i rest =>
    have := mem_subPathsL rest q
    simp [subPathsL, Items.toList, this]

/-! ### Scanning -/

/-- The cases of a file. -/
def fileCases : Option (List Decl) → List Decl
  | some ds => ds.filter listed
  | none => []

theorem fileItem_eq (rel : List Str) (name : Str) (ds : Option (List Decl)) :
    fileItem rel name ds = .mk .file name [] (rel ++ [name]) (!(fileCases ds).isEmpty)
      (.ofList ((fileCases ds).map fun d => .mk .case d.name d.name (rel ++ [name]) false .nil)) := by
  cases ds with
  | none => rfl
  | some ds => simp [fileItem, cases, fileCases]

theorem mem_scan (ex : List Str → Bool) (rel : List Str) (ns : Nodes) (i : Item) :
    i ∈ (scan ex rel ns).1.toList ↔ ∃ n ∈ ns.toList, ∃ b, scanNode ex rel n = some (i, b) := by
  match ns with
  | .nil => simp [scan, Items.toList, Nodes.toList]
  | .cons n rest =>
    have := mem_scan ex rel rest i
    rw [scan]
    split
    · rename_i j b h
      simp [Items.toList, Nodes.toList, this, h]
      refine or_congr_left ⟨?_, ?_⟩
      · rintro rfl; cases b <;> simp
      · rintro (⟨rfl, _⟩ | ⟨rfl, _⟩) <;> rfl
    · rename_i h
      simp [Nodes.toList, this, h]

theorem scan_has (ex : List Str → Bool) (rel : List Str) (ns : Nodes) :
    (scan ex rel ns).2 = true ↔ ∃ n ∈ ns.toList, ∃ i, scanNode ex rel n = some (i, true) := by
  match ns with
  | .nil => simp [scan, Nodes.toList]
  | .cons n rest =>
    have := scan_has ex rel rest
    rw [scan]
    split
    · rename_i j b h
      simp [Nodes.toList, this, h]
    · rename_i h
      simp [Nodes.toList, this, h]

theorem scanNode_file (ex : List Str → Bool) (rel : List Str) (name : Str) (ds : Option (List Decl)) (x : Item × Bool) :
    scanNode ex rel (.file name ds) = some x ↔
      ex (rel ++ [name]) = false ∧ isTestFile name = true ∧ x = (fileItem rel name ds, !(fileCases ds).isEmpty) := by
  rw [scanNode, fileItem_eq]
  cases ex (rel ++ [name]) <;> cases isTestFile name <;> simp [eq_comm]

theorem scanNode_dir (ex : List Str → Bool) (rel : List Str) (name : Str) (gm : Bool) (es : Nodes) (x : Item × Bool) :
    scanNode ex rel (.dir name gm es) = some x ↔
      ex (rel ++ [name]) = false ∧ rel ++ [name] ≠ ["vendor".toList] ∧ gm = false ∧
      x = (.mk .dir name [] (rel ++ [name]) (scan ex (rel ++ [name]) es).2 (scan ex (rel ++ [name]) es).1, false) := by
  rw [scanNode]
  generalize "vendor".toList = v
  cases ex (rel ++ [name]) <;> cases gm <;> by_cases h : rel ++ [name] = [v] <;> simp [eq_comm, h]

/-- The directory has a test file that is not excluded, with a test case. -/
def HasCase (ex : List Str → Bool) (p : List Str) (es : Nodes) : Prop :=
  ∃ name ds, .file name (some ds) ∈ es.toList ∧ ex (p ++ [name]) = false ∧ isTestFile name = true ∧
    ∃ d ∈ ds, listed d = true

theorem scan_hasCase (ex : List Str → Bool) (p : List Str) (es : Nodes) : (scan ex p es).2 = true ↔ HasCase ex p es := by
  rw [scan_has]
  constructor
  · rintro ⟨n, hn, i, h⟩
    cases n with
    | dir name gm es' =>
      rw [scanNode_dir] at h
      have := h.2.2.2
      injection this with _ h; cases h
    | file name ds =>
      rw [scanNode_file] at h
      obtain ⟨h1, h2, h3⟩ := h
      injection h3 with _ h3
      cases ds with
      | none => simp [fileCases] at h3
      | some ds =>
        simp [fileCases] at h3
        obtain ⟨d, a, b⟩ := h3
        exact ⟨name, ds, hn, h1, h2, d, a, b⟩
  · rintro ⟨name, ds, hn, h1, h2, d, hd, l⟩
    refine ⟨_, hn, fileItem p name (some ds), ?_⟩
    rw [scanNode_file]
    refine ⟨h1, h2, ?_⟩
    have : (fileCases (some ds)).isEmpty = false := by
      simp [fileCases]; exact ⟨d, hd, l⟩
    rw [this]; rfl

/-- A directory at a path below `rel` that the walk enters. -/
def Entered (ex : List Str → Bool) (rel : List Str) (ns : Nodes) (p : List Str) (es : Nodes) : Prop :=
  At ns p es ∧ ∀ q, q <+: p → q ≠ [] → ex (rel ++ q) = false ∧ rel ++ q ≠ ["vendor".toList]

theorem entered_here (ex : List Str → Bool) (rel : List Str) (ns : Nodes) : Entered ex rel ns [] ns := by
  refine ⟨.here, ?_⟩
  intro q hq hne
  simp at hq
  exact absurd hq hne

theorem entered_cons (ex : List Str → Bool) (rel : List Str) (ns : Nodes) (n : Str) (p : List Str) (t : Nodes) :
    Entered ex rel ns (n :: p) t ↔
      ∃ es, .dir n false es ∈ ns.toList ∧ ex (rel ++ [n]) = false ∧ rel ++ [n] ≠ ["vendor".toList] ∧
        Entered ex (rel ++ [n]) es p t := by
  constructor
  · rintro ⟨h, hp⟩
    cases h with
    | @down _ _ es _ _ hm ha =>
      refine ⟨es, hm, (hp [n] (by simp) (by simp)).1, (hp [n] (by simp) (by simp)).2, ha, ?_⟩
      intro q hq _
      have := hp (n :: q) (by simpa using hq) (by simp)
      simpa using this
  · rintro ⟨es, hm, h1, h2, ha, hp⟩
    refine ⟨.down hm ha, ?_⟩
    intro q hq hne
    cases q with
    | nil => exact absurd rfl hne
    | cons m q =>
      obtain ⟨e0, hq0⟩ := List.cons_prefix_cons.mp hq
      subst e0
      by_cases e : q = []
      · subst e; exact ⟨h1, h2⟩
      · have := hp q hq0 e
        simpa using this

theorem at_snoc {ns es : Nodes} {p : List Str} (h : At ns p es) {n : Str} {t : Nodes} (hm : .dir n false t ∈ es.toList) :
    At ns (p ++ [n]) t := by
  induction h with
  | here => exact .down hm .here
  | down h1 _ ih => exact .down h1 (ih hm)

theorem entered_snoc {ex : List Str → Bool} {rel : List Str} {ns es : Nodes} {p : List Str} (h : Entered ex rel ns p es)
    {n : Str} {t : Nodes} (hm : .dir n false t ∈ es.toList) (h1 : ex (rel ++ (p ++ [n])) = false)
    (h2 : rel ++ (p ++ [n]) ≠ ["vendor".toList]) : Entered ex rel ns (p ++ [n]) t := by
  refine ⟨at_snoc h.1 hm, ?_⟩
  intro q hq hne
  rcases List.prefix_concat_iff.mp (by simpa using hq) with rfl | hq
  · exact ⟨h1, h2⟩
  · exact h.2 q hq hne

mutual
theorem mem_subPaths_node (ex : List Str → Bool) : ∀ (n : Node) (rel : List Str) (i : Item) (b : Bool),
    scanNode ex rel n = some (i, b) → ∀ q, q ∈ subPaths i ↔
      ∃ m es p t, n = .dir m false es ∧ q = rel ++ m :: p ∧ Entered ex (rel ++ [m]) es p t ∧ HasCase ex q t
  | .file name ds => by
    intro rel i b h q
    rw [scanNode_file] at h
    obtain ⟨-, -, h⟩ := h
    injection h with h _
    subst h
    rw [fileItem_eq, subPaths, List.mem_append, mem_subPathsL, toList_ofList]
    simp [subPaths, subPathsL]
  | .dir name gm es => by
    intro rel i b h q
    rw [scanNode_dir] at h
    obtain ⟨_, _, rfl, h⟩ := h
    injection h with h _
    subst h
    have ih := mem_subPaths_nodes ex es (rel ++ [name]) q
    rw [subPaths, List.mem_append, ih]
    constructor
    · rintro (h | ⟨m, es', p, t, hm, rfl, he, hc⟩)
      · split at h
        · rename_i hh
          simp at hh
          rw [scan_hasCase] at hh
          simp at h; subst h
          exact ⟨name, es, [], es, rfl, by simp, entered_here ex _ es, hh⟩
        · simp at h
      · refine ⟨name, es, m :: p, t, rfl, by simp, ?_, hc⟩
        rw [entered_cons]
        exact ⟨es', hm, he⟩
    · rintro ⟨m, es', p, t, hm, rfl, he, hc⟩
      injection hm with e1 e2 e3
      subst e1; subst e3
      cases p with
      | nil =>
        left
        have : t = es := by cases he.1; rfl
        subst this
        rw [← scan_hasCase] at hc
        simp [hc]
      | cons k p =>
        right
        rw [entered_cons] at he
        obtain ⟨es'', hm, he⟩ := he
        exact ⟨k, es'', p, t, hm, by simp, he, hc⟩
theorem mem_subPaths_nodes (ex : List Str → Bool) : ∀ (ns : Nodes) (rel : List Str) (q : List Str),
    q ∈ subPathsL (scan ex rel ns).1 ↔
      ∃ m es p t, .dir m false es ∈ ns.toList ∧ q = rel ++ m :: p ∧
        (ex (rel ++ [m]) = false ∧ rel ++ [m] ≠ ["vendor".toList] ∧ Entered ex (rel ++ [m]) es p t) ∧ HasCase ex q t
  | .nil => by intro rel q; simp [scan, subPathsL, Nodes.toList]
  | .cons n rest => by
    intro rel q
    have ih := mem_subPaths_nodes ex rest rel q
    have ihn := mem_subPaths_node ex n rel
    rw [scan]
    have key : (q ∈ match scanNode ex rel n with | some (i, _) => subPaths i | none => []) ↔
        ∃ m es p t, n = .dir m false es ∧ q = rel ++ m :: p ∧
        (ex (rel ++ [m]) = false ∧ rel ++ [m] ≠ ["vendor".toList] ∧ Entered ex (rel ++ [m]) es p t) ∧ HasCase ex q t := by
      cases hs : scanNode ex rel n with
      | none =>
        constructor
        · intro h; simp at h
        · rintro ⟨m, es, p, t, rfl, rfl, ⟨h1, h2, _⟩, _⟩
          have := (scanNode_dir ex rel m false es _).mpr ⟨h1, h2, rfl, rfl⟩
          rw [hs] at this; cases this
      | some x =>
        obtain ⟨i, b⟩ := x
        show q ∈ subPaths i ↔ _
        rw [ihn i b hs q]
        constructor
        · rintro ⟨m, es, p, t, rfl, h2, h3, h4⟩
          have := (scanNode_dir ex rel m false es (i, b)).mp hs
          exact ⟨m, es, p, t, rfl, h2, ⟨this.1, this.2.1, h3⟩, h4⟩
        · rintro ⟨m, es, p, t, h1, h2, h3, h4⟩
          exact ⟨m, es, p, t, h1, h2, h3.2.2, h4⟩
    have main : q ∈ subPathsL (match scanNode ex rel n with
          | some (i, b) => (Items.cons i (scan ex rel rest).1, b || (scan ex rel rest).2)
          | none => scan ex rel rest).1 ↔
        (q ∈ match scanNode ex rel n with | some (i, _) => subPaths i | none => []) ∨ q ∈ subPathsL (scan ex rel rest).1 := by
      cases scanNode ex rel n with
      | none => simp
      | some x => simp [subPathsL]
    refine main.trans ?_
    rw [key, ih]
    constructor
    · rintro (⟨m, es, p, t, rfl, h⟩ | ⟨m, es, p, t, hm, h⟩)
      · exact ⟨m, es, p, t, by simp [Nodes.toList], h⟩
      · exact ⟨m, es, p, t, by simp [Nodes.toList, hm], h⟩
    · rintro ⟨m, es, p, t, hm, h⟩
      simp only [Nodes.toList, List.mem_cons] at hm
      rcases hm with rfl | hm
      · exact .inl ⟨m, es, p, t, rfl, h⟩
      · exact .inr ⟨m, es, p, t, hm, h⟩
end

/-- The directories for which `go test` is called. -/
theorem mem_subPaths_scan (ex : List Str → Bool) (rel : List Str) (ns : Nodes) (q : List Str) :
    q ∈ subPathsL (scan ex rel ns).1 ↔ ∃ p t, p ≠ [] ∧ q = rel ++ p ∧ Entered ex rel ns p t ∧ HasCase ex q t := by
  rw [mem_subPaths_nodes]
  constructor
  · rintro ⟨m, es, p, t, hm, rfl, he, hc⟩
    exact ⟨m :: p, t, by simp, rfl, (entered_cons ..).mpr ⟨es, hm, he⟩, hc⟩
  · rintro ⟨p, t, hne, rfl, he, hc⟩
    cases p with
    | nil => exact absurd rfl hne
    | cons m p =>
      obtain ⟨es, hm, he⟩ := (entered_cons ..).mp he
      exact ⟨m, es, p, t, hm, rfl, he, hc⟩

/-! ### Filtering -/

theorem filter_case_list (l : List Decl) (rel : List Str) :
    filterItems (.ofList (l.map fun d => .mk .case d.name d.name rel false .nil)) =
      .ofList (l.map fun d => .mk .case d.name d.name rel false .nil) := by
  induction l with
  | nil => simp [Items.ofList, filterItems]
  | cons d l ih =>
    simp only [List.map_cons, Items.ofList]
    rw [filterItems]
    have : filterItem (.mk .case d.name d.name rel false .nil) = some (.mk .case d.name d.name rel false .nil) := by
      simp [filterItem, filterItems]
    rw [this, ih]

theorem mem_filterItems (is : Items) (j : Item) : j ∈ (filterItems is).toList ↔ ∃ i ∈ is.toList, filterItem i = some j := by
  match is with
  | .nil => simp [filterItems, Items.toList]
  | .cons i rest =>
    have := mem_filterItems rest j
    rw [filterItems]
    split
    · rename_i i' h
      simp only [Items.toList, List.mem_cons, this, exists_eq_or_imp, h, Option.some.injEq]
      exact or_congr_left eq_comm
    · rename_i h
      simp [Items.toList, this, h]

theorem filterItem_eq (k : Kind) (n u : Str) (r : List Str) (h : Bool) (cs : Items) (hk : k ≠ .case) (j : Item) :
    filterItem (.mk k n u r h cs) = some j ↔ (filterItems cs).toList ≠ [] ∧ j = .mk k n u r h (filterItems cs) := by
  rw [filterItem]
  cases filterItems cs with
  | nil => simp [hk, Items.toList]
  | cons i l =>
    simp only [Items.toList, Option.some.injEq, ne_eq, reduceCtorEq, not_false_eq_true, true_and]
    exact eq_comm

/-- The item of a directory. -/
def dirItem (ex : List Str → Bool) (name : Str) (p : List Str) (es : Nodes) : Item :=
  .mk .dir name [] p (scan ex p es).2 (filterItems (scan ex p es).1)

/-- The children of a directory's item. -/
theorem mem_dirItem (ex : List Str → Bool) (p : List Str) (es : Nodes) (j : Item) :
    j ∈ (filterItems (scan ex p es).1).toList ↔
      (∃ name t, .dir name false t ∈ es.toList ∧ ex (p ++ [name]) = false ∧ p ++ [name] ≠ ["vendor".toList] ∧
        (filterItems (scan ex (p ++ [name]) t).1).toList ≠ [] ∧ j = dirItem ex name (p ++ [name]) t) ∨
      (∃ name ds, .file name (some ds) ∈ es.toList ∧ ex (p ++ [name]) = false ∧ isTestFile name = true ∧
        ds.filter listed ≠ [] ∧ j = fileItem p name (some ds)) := by
  rw [mem_filterItems]
  constructor
  · rintro ⟨i, hi, hf⟩
    rw [mem_scan] at hi
    obtain ⟨n, hn, b, hs⟩ := hi
    cases n with
    | dir name gm t =>
      rw [scanNode_dir] at hs
      obtain ⟨h1, h2, rfl, h⟩ := hs
      injection h with h _
      subst h
      rw [filterItem_eq _ _ _ _ _ _ (by simp)] at hf
      exact .inl ⟨name, t, hn, h1, h2, hf.1, hf.2⟩
    | file name ds =>
      rw [scanNode_file] at hs
      obtain ⟨h1, h2, h⟩ := hs
      injection h with h _
      subst h
      rw [fileItem_eq, filterItem_eq _ _ _ _ _ _ (by simp), filter_case_list, toList_ofList] at hf
      cases ds with
      | none => simp [fileCases] at hf
      | some ds =>
        refine .inr ⟨name, ds, hn, h1, h2, ?_, ?_⟩
        · have := hf.1; simpa [fileCases] using this
        · rw [fileItem_eq]; exact hf.2
  · rintro (⟨name, t, hn, h1, h2, h3, rfl⟩ | ⟨name, ds, hn, h1, h2, h3, rfl⟩)
    · refine ⟨_, (mem_scan ..).mpr ⟨_, hn, false, (scanNode_dir ..).mpr ⟨h1, h2, rfl, rfl⟩⟩, ?_⟩
      rw [filterItem_eq _ _ _ _ _ _ (by simp)]
      exact ⟨h3, rfl⟩
    · refine ⟨_, (mem_scan ..).mpr ⟨_, hn, _, (scanNode_file ..).mpr ⟨h1, h2, rfl⟩⟩, ?_⟩
      rw [fileItem_eq, filterItem_eq _ _ _ _ _ _ (by simp), filter_case_list, toList_ofList]
      refine ⟨?_, rfl⟩
      simpa [fileCases] using h3

/-- What the children of an item are, once more. -/
theorem mem_fileItem (p : List Str) (name : Str) (ds : List Decl) (j : Item) :
    j ∈ (fileItem p name (some ds)).children.toList ↔
      ∃ d ∈ ds, listed d = true ∧ j = .mk .case d.name d.name (p ++ [name]) false .nil := by
  rw [fileItem_eq]
  simp only [Item.children, toList_ofList, fileCases, List.mem_map, List.mem_filter]
  constructor
  · rintro ⟨d, ⟨a, b⟩, rfl⟩; exact ⟨d, a, b, rfl⟩
  · rintro ⟨d, a, b, rfl⟩; exact ⟨d, ⟨a, b⟩, rfl⟩

/-- The kinds of items in the tree. -/
inductive Good (ex : List Str → Bool) (rootName : Str) (root : Nodes) : Item → Prop where
  | root : Good ex rootName root (dirItem ex rootName [] root)
  | dir {name p es} : p ≠ [] → Entered ex [] root p es → (filterItems (scan ex p es).1).toList ≠ [] →
      Good ex rootName root (dirItem ex name p es)
  | file {p es name ds} : Entered ex [] root p es → .file name (some ds) ∈ es.toList → ex (p ++ [name]) = false →
      isTestFile name = true → Good ex rootName root (fileItem p name (some ds))
  | case {p es name ds d} : Entered ex [] root p es → .file name (some ds) ∈ es.toList → ex (p ++ [name]) = false →
      isTestFile name = true → d ∈ ds → listed d = true →
      Good ex rootName root (.mk .case d.name d.name (p ++ [name]) false .nil)

theorem good_children {ex : List Str → Bool} {rootName : Str} {root : Nodes} {p : List Str} {es : Nodes}
    (he : Entered ex [] root p es) {j : Item} (hj : j ∈ (filterItems (scan ex p es).1).toList) : Good ex rootName root j := by
  rw [mem_dirItem] at hj
  rcases hj with ⟨name, t, hn, h1, h2, h3, rfl⟩ | ⟨name, ds, hn, h1, h2, _, rfl⟩
  · exact .dir (by simp) (entered_snoc he hn (by simpa using h1) (by simpa using h2)) h3
  · exact .file he hn h1 h2

theorem scanTests_eq (ex : List Str → Bool) (rootName : Str) (root : Nodes) :
    scanTests ex rootName root = dirItem ex rootName [] root := rfl

theorem good_within {ex : List Str → Bool} {rootName : Str} {root : Nodes} {j i : Item} (h : Within j i)
    (hi : Good ex rootName root i) : Good ex rootName root j := by
  induction h with
  | self => exact hi
  | child hm _ ih =>
    apply ih
    cases hi with
    | root => exact good_children (entered_here _ _ _) hm
    | dir _ he _ => exact good_children he hm
    | file he h1 h2 h3 =>
      rw [mem_fileItem] at hm
      obtain ⟨d, hd, hl, rfl⟩ := hm
      exact .case he h1 h2 h3 hd hl
    | case => simp [Item.children, Items.toList] at hm

/-! ### The tree -/

theorem within_trans {a b c : Item} (h1 : Within a b) (h2 : Within b c) : Within a c := by
  induction h2 with
  | self => exact h1
  | child hm _ ih => exact .child hm (ih h1)

/-- A directory with tests below stays in the tree. -/
theorem within_dir {ex : List Str → Bool} {ns es : Nodes} {p : List Str} (ha : At ns p es) :
    ∀ (rel : List Str) (name : Str), (∀ q, q <+: p → q ≠ [] → ex (rel ++ q) = false ∧ rel ++ q ≠ ["vendor".toList]) →
    (filterItems (scan ex (rel ++ p) es).1).toList ≠ [] →
    (filterItems (scan ex rel ns).1).toList ≠ [] ∧ ∃ n, Within (dirItem ex n (rel ++ p) es) (dirItem ex name rel ns) := by
  induction ha with
  | here => intro rel name _ h; simp at h ⊢; exact ⟨h, name, .self⟩
  | @down ns n es p t hm _ ih =>
    intro rel name hp hne
    have h1 := hp [n] (by simp) (by simp)
    have := ih (rel ++ [n]) n (by
      intro q hq hq'
      have := hp (n :: q) (by simpa using hq) (by simp)
      simpa using this) (by simpa using hne)
    obtain ⟨x, m, w⟩ := this
    have mem : dirItem ex n (rel ++ [n]) es ∈ (filterItems (scan ex rel ns).1).toList := by
      rw [mem_dirItem]
      exact .inl ⟨n, es, hm, h1.1, h1.2, x, rfl⟩
    refine ⟨?_, m, ?_⟩
    · intro e; rw [e] at mem; cases mem
    · have w' : Within (dirItem ex m (rel ++ n :: p) t) (dirItem ex n (rel ++ [n]) es) := by simpa using w
      exact .child (by simpa [dirItem, Item.children] using mem) w'

/-- **C64.** The tree of tests has an item for exactly the following functions: those that count as tests, in the test files
    of the directories of the project, if neither the file nor a directory above it is excluded. -/
theorem C64_shown (ex : List Str → Bool) (rootName : Str) (root : Nodes) (name under : Str) (rel : List Str) (h : Bool)
    (cs : Items) :
    Within (.mk .case name under rel h cs) (scanTests ex rootName root) ↔
      h = false ∧ cs = .nil ∧ under = name ∧
      ∃ p es file ds d, InProject root p es ∧ (∀ q, q <+: rel → q ≠ [] → ex q = false) ∧
        .file file (some ds) ∈ es.toList ∧ isTestFile file = true ∧ rel = p ++ [file] ∧
        d ∈ ds ∧ listed d = true ∧ d.name = name := by
  constructor
  · intro w
    have g := good_within w (by rw [scanTests_eq]; exact .root)
    generalize hk : (Item.mk Kind.case name under rel h cs) = k at g
    cases g with
    | root => cases hk
    | dir => cases hk
    | file => rw [fileItem_eq] at hk; cases hk
    | @case p es file ds d he h1 h2 h3 h4 h5 =>
      injection hk with _ e1 e2 e3 e4 e5
      subst e1; subst e2; subst e3; subst e4; subst e5
      refine ⟨rfl, rfl, rfl, p, es, file, ds, d, ⟨he.1, ?_⟩, ?_, h1, h3, rfl, h4, h5, rfl⟩
      · intro hv
        cases p with
        | nil => cases hv
        | cons m p =>
          injection hv with hv
          exact (he.2 [m] (by simp) (by simp)).2 (by simp [hv])
      · intro q hq hne
        rcases List.prefix_concat_iff.mp (by simpa using hq) with rfl | hq
        · exact h2
        · have := (he.2 q hq hne).1; simpa using this
  · rintro ⟨rfl, rfl, rfl, p, es, file, ds, d, hp, hex, hf, ht, rfl, hd, hl, rfl⟩
    have ent : ∀ q, q <+: p → q ≠ [] → ex ([] ++ q) = false ∧ [] ++ q ≠ ["vendor".toList] := by
      intro q hq hne
      refine ⟨by simpa using hex q (hq.trans (List.prefix_append _ _)) hne, ?_⟩
      intro e
      simp only [List.nil_append] at e
      subst e
      obtain ⟨r, rfl⟩ := hq
      exact hp.2 rfl
    have hmem : fileItem p file (some ds) ∈ (filterItems (scan ex p es).1).toList := by
      rw [mem_dirItem]
      refine .inr ⟨file, ds, hf, ?_, ht, ?_, rfl⟩
      · exact hex _ (List.prefix_refl _) (by simp)
      · intro e
        rw [List.filter_eq_nil_iff] at e
        exact e d hd hl
    obtain ⟨_, n, w⟩ := within_dir hp.1 [] rootName ent (by intro e; simp at e; rw [e] at hmem; cases hmem)
    rw [scanTests_eq]
    refine within_trans (.child (by simpa [dirItem, Item.children] using hmem) (.child ?_ .self)) w
    rw [mem_fileItem]
    exact ⟨d, hd, hl, rfl⟩

/-- **C64.** Every test `go test` knows counts as a test. -/
theorem C64_listed (d : Decl) (h : goTest d = true) : listed d = true := by
  simp only [goTest, listed, Bool.and_eq_true] at h ⊢
  exact ⟨⟨h.1.1.1.1.1, h.1.1.2⟩, h.1.2⟩

/-- **C64.** The tests: functions, not methods, named `Test` or `TestXxx` where `Xxx` does not begin with a lower case letter, with one
    parameter `*testing.T`. What is shown as a test: functions and methods named `Test…` with one parameter. -/
theorem C64_which (d : Decl) :
    (goTest d = true ↔ (∃ x, d.name = "Test".toList ++ x ∧ ∀ c y, x = c :: y → c.isLower = false) ∧ d.recv = false ∧ d.body = true ∧
      d.params = 1 ∧ d.testingT = true) ∧
    (listed d = true ↔ (∃ x, d.name = "Test".toList ++ x) ∧ d.body = true ∧ d.params = 1) := by
  have hpre : ("Test".toList.isPrefixOf d.name = true) ↔ ∃ x, d.name = "Test".toList ++ x := by
    rw [List.isPrefixOf_iff_prefix]
    exact ⟨fun ⟨x, h⟩ => ⟨x, h.symm⟩, fun ⟨x, h⟩ => ⟨x, h.symm⟩⟩
  constructor
  · simp only [goTest, Bool.and_eq_true, hpre, decide_eq_true_eq]
    constructor
    · rintro ⟨⟨⟨⟨⟨⟨x, hx⟩, hl⟩, hr⟩, hb⟩, hp⟩, ht⟩
      refine ⟨⟨x, hx, fun c y hc => ?_⟩, by simpa using hr, hb, hp, ht⟩
      subst hc
      rw [hx] at hl
      simpa using hl
    · rintro ⟨⟨x, hx, hl⟩, hr, hb, hp, ht⟩
      refine ⟨⟨⟨⟨⟨⟨x, hx⟩, ?_⟩, by simp [hr]⟩, hb⟩, hp⟩, ht⟩
      rw [hx]
      cases x with
      | nil => decide
      | cons c y => simpa using hl c y rfl
  · simp only [listed, Bool.and_eq_true, hpre, decide_eq_true_eq]
    exact ⟨fun ⟨⟨a, b⟩, c⟩ => ⟨a, b, c⟩, fun ⟨a, b, c⟩ => ⟨⟨a, b⟩, c⟩⟩

example : goTest { name := "Test_x".toList } = true ∧ goTest { name := "Test".toList } = true ∧
    goTest { name := "Testing".toList } = false ∧ listed { name := "Testing".toList } = true := by decide

/-- `TestMain`, methods and names such as `Testing` are shown as tests. -/
theorem C64_counterexample_listed :
    listed { name := "TestMain".toList, testingT := false } = true ∧ goTest { name := "TestMain".toList, testingT := false } = false ∧
    listed { name := "Testing".toList } = true ∧ goTest { name := "Testing".toList } = false ∧
    listed { name := "TestX".toList, recv := true } = true ∧ goTest { name := "TestX".toList, recv := true } = false := by
  decide

/-! ### Running -/

theorem find_at {ns es : Nodes} {p : List Str} (h : At ns p es) (ok : ns.Ok) : find ns p = some es := by
  induction h with
  | here => simp [find]
  | @down ns n es p t hm _ ih =>
    have aux : ∀ (ns : Nodes), ns.Ok → .dir n false es ∈ ns.toList → find ns (n :: p) = find es p ∧ es.Ok := by
      intro ns
      match ns with
      | .nil => intro _ h; simp [Nodes.toList] at h
      | .cons x rest =>
        intro ok hm
        rw [Nodes.Ok] at ok
        simp only [Nodes.toList, List.mem_cons] at hm
        have rec_ : ∀ (rest : Nodes), rest.Ok → .dir n false es ∈ rest.toList → find rest (n :: p) = find es p ∧ es.Ok := by
          intro rest
          induction rest using Nodes.rec (motive_1 := fun _ => True) with
          | nil => intro _ h; simp [Nodes.toList] at h
          | cons y rest _ ih =>
            intro ok hm
            rw [Nodes.Ok] at ok
            simp only [Nodes.toList, List.mem_cons] at hm
            rcases hm with rfl | hm
            · have := ok.1; rw [Node.Ok] at this
              exact ⟨by simp [find], this⟩
            · have := ih ok.2.1 hm
              cases y with
              | file m ds => simpa [find] using this
              | dir m g es' =>
                have ne := ok.2.2 _ hm
                simp only [Node.name] at ne
                rw [find, if_neg (fun e => ne e.symm)]
                exact this
          | file => trivial
          | dir => trivial
        exact rec_ (.cons x rest) (by rw [Nodes.Ok]; exact ok) (by simpa [Nodes.toList] using hm)
    obtain ⟨a, b⟩ := aux ns ok hm
    rw [a]; exact ih b

theorem mem_pkgTests (ns : Nodes) (n : Str) : n ∈ pkgTests ns ↔
    ∃ file ds, .file file (some ds) ∈ ns.toList ∧ isTestFile file = true ∧ ∃ d ∈ ds, goTest d = true ∧ d.name = n := by
  match ns with
  | .nil => simp [pkgTests, Nodes.toList]
  | .cons (.file m (some ds)) rest =>
    have ih := mem_pkgTests rest n
    rw [pkgTests, List.mem_append, ih]
    constructor
    · rintro (h | ⟨f, ds', h1, h2⟩)
      · split at h
        · rename_i ht
          simp at h
          obtain ⟨d, ⟨h1, h2⟩, h3⟩ := h
          exact ⟨m, ds, by simp [Nodes.toList], ht, d, h1, h2, h3⟩
        · simp at h
      · exact ⟨f, ds', by simp [Nodes.toList, h1], h2⟩
    · rintro ⟨f, ds', h1, h2, d, h3, h4, h5⟩
      simp only [Nodes.toList, List.mem_cons] at h1
      rcases h1 with h1 | h1
      · injection h1 with e1 e2; injection e2 with e2
        subst e1; subst e2
        left; rw [if_pos h2]; simp; exact ⟨d, ⟨h3, h4⟩, h5⟩
      · exact .inr ⟨f, ds', h1, h2, d, h3, h4, h5⟩
  | .cons (.file m none) rest =>
    have ih := mem_pkgTests rest n
    simp [pkgTests, Nodes.toList, ih]
  | .cons (.dir m g es) rest =>
    have ih := mem_pkgTests rest n
    simp [pkgTests, Nodes.toList, ih]

theorem mem_goTestRun (root : Nodes) (ok : root.Ok) (dirs : List (List Str)) (run : Option Str) (q : List Str) (n : Str)
    (es : Nodes) (hq : At root q es) :
    (q, n) ∈ goTestRun root dirs run ↔ (q ∈ dirs ∨ dirs = [] ∧ q = []) ∧ n ∈ pkgTests es ∧
      ∀ r, run = some r → selected r [n] = true := by
  unfold goTestRun
  rw [List.mem_flatMap]
  constructor
  · rintro ⟨p, hp, h⟩
    split at h
    · simp at h
    · rename_i es' hf
      simp only [List.mem_map, List.mem_filter, Prod.mk.injEq] at h
      obtain ⟨m, ⟨h1, h2⟩, rfl, rfl⟩ := h
      rw [find_at hq ok] at hf
      injection hf with hf; subst hf
      refine ⟨?_, h1, ?_⟩
      · split at hp
        · rename_i e; right; exact ⟨e, by simpa using hp⟩
        · exact .inl hp
      · rintro r rfl; simpa using h2
  · rintro ⟨hp, h1, h2⟩
    refine ⟨q, ?_, ?_⟩
    · rcases hp with hp | ⟨e, rfl⟩
      · rw [if_neg (by intro e; rw [e] at hp; cases hp)]; exact hp
      · simp [e]
    · rw [find_at hq ok]
      simp only [List.mem_map, List.mem_filter, Prod.mk.injEq]
      refine ⟨n, ⟨h1, ?_⟩, trivial, rfl⟩
      cases run with
      | none => rfl
      | some r => exact h2 r rfl

mutual
/-- What is left of a directory after filtering has a directory with a test case. -/
theorem nonempty_node (ex : List Str → Bool) : ∀ (n : Node) (rel : List Str) (i : Item) (b : Bool) (j : Item),
    scanNode ex rel n = some (i, b) → filterItem i = some j → b = true ∨ subPaths i ≠ []
  | .file name ds => by
    intro rel i b j h hf
    rw [scanNode_file] at h
    obtain ⟨-, -, h⟩ := h
    injection h with h1 h2
    subst h1
    rw [fileItem_eq, filterItem_eq _ _ _ _ _ _ (by simp), filter_case_list, toList_ofList] at hf
    left; rw [h2]
    have := hf.1
    cases hc : fileCases ds with
    | nil => simp [hc] at this
    | cons d l => simp
  | .dir name gm es => by
    intro rel i b j h hf
    rw [scanNode_dir] at h
    obtain ⟨_, _, rfl, h⟩ := h
    injection h with h _
    subst h
    rw [filterItem_eq _ _ _ _ _ _ (by simp)] at hf
    have := nonempty_nodes ex es (rel ++ [name]) hf.1
    right
    rw [subPaths]
    rcases this with h | h
    · simp [h]
    · simp [h]
theorem nonempty_nodes (ex : List Str → Bool) : ∀ (ns : Nodes) (rel : List Str),
    (filterItems (scan ex rel ns).1).toList ≠ [] → (scan ex rel ns).2 = true ∨ subPathsL (scan ex rel ns).1 ≠ []
  | .nil => by intro rel h; simp [scan, filterItems, Items.toList] at h
  | .cons n rest => by
    intro rel h
    have ih := nonempty_nodes ex rest rel
    have ihn := nonempty_node ex n rel
    rw [scan] at h ⊢
    cases hs : scanNode ex rel n with
    | none => rw [hs] at h; exact ih h
    | some x =>
      obtain ⟨i, b⟩ := x
      rw [hs] at h
      simp only [filterItems] at h
      cases hf : filterItem i with
      | none =>
        rw [hf] at h
        rcases ih h with h | h
        · left; simp [h]
        · right; simp [subPathsL, h]
      | some j =>
        rcases ihn i b j hs hf with h | h
        · left; simp [h]
        · right; simp [subPathsL, h]
end

mutual
/-- Filtering does not change the directories. -/
theorem filter_subPaths_node (ex : List Str → Bool) : ∀ (n : Node) (rel : List Str) (i : Item) (b : Bool),
    scanNode ex rel n = some (i, b) →
    subPaths i = match filterItem i with | some j => subPaths j | none => []
  | .file name ds => by
    intro rel i b h
    rw [scanNode_file] at h
    obtain ⟨-, -, h⟩ := h
    injection h with h1 _
    subst h1
    have nil : ∀ (l : List Decl) (r : List Str),
        subPathsL (.ofList (l.map fun d => .mk .case d.name d.name r false .nil)) = [] := by
      intro l r
      induction l with
      | nil => rfl
      | cons d l ih => simp [Items.ofList, subPathsL, subPaths, ih]
    split
    · rename_i j hj
      rw [fileItem_eq, filterItem_eq _ _ _ _ _ _ (by simp), filter_case_list] at hj
      rw [fileItem_eq, hj.2]
    · rw [fileItem_eq, subPaths, nil]; simp
  | .dir name gm es => by
    intro rel i b h
    rw [scanNode_dir] at h
    obtain ⟨_, _, rfl, h⟩ := h
    injection h with h _
    subst h
    have ih := filter_subPaths_nodes ex es (rel ++ [name])
    split
    · rename_i j hj
      rw [filterItem_eq _ _ _ _ _ _ (by simp)] at hj
      rw [hj.2, subPaths, subPaths, ih]
    · rename_i hj
      have e : (filterItems (scan ex (rel ++ [name]) es).1).toList = [] := by
        cases hx : (filterItems (scan ex (rel ++ [name]) es).1).toList with
        | nil => rfl
        | cons a l =>
          have := (filterItem_eq .dir name [] (rel ++ [name]) (scan ex (rel ++ [name]) es).2
            (scan ex (rel ++ [name]) es).1 (by simp) _).mpr ⟨by rw [hx]; simp, rfl⟩
          rw [hj] at this; cases this
      have h1 : (scan ex (rel ++ [name]) es).2 = false := by
        cases hc : (scan ex (rel ++ [name]) es).2 with
        | false => rfl
        | true =>
          rw [scan_hasCase] at hc
          obtain ⟨f, ds, hf, h1, h2, d, hd, hl⟩ := hc
          have : fileItem (rel ++ [name]) f (some ds) ∈ (filterItems (scan ex (rel ++ [name]) es).1).toList := by
            rw [mem_dirItem]
            refine .inr ⟨f, ds, hf, h1, h2, ?_, rfl⟩
            intro e; rw [List.filter_eq_nil_iff] at e; exact e d hd hl
          rw [e] at this; cases this
      rw [subPaths, h1, ← ih]
      cases hy : filterItems (scan ex (rel ++ [name]) es).1 with
      | nil => simp [subPathsL]
      | cons a l => rw [hy] at e; simp [Items.toList] at e
theorem filter_subPaths_nodes (ex : List Str → Bool) : ∀ (ns : Nodes) (rel : List Str),
    subPathsL (filterItems (scan ex rel ns).1) = subPathsL (scan ex rel ns).1
  | .nil => by intro rel; simp [scan, filterItems]
  | .cons n rest => by
    intro rel
    have ih := filter_subPaths_nodes ex rest rel
    have ihn := filter_subPaths_node ex n rel
    rw [scan]
    cases hs : scanNode ex rel n with
    | none => exact ih
    | some x =>
      obtain ⟨i, b⟩ := x
      have := ihn i b hs
      simp only [filterItems, subPathsL]
      cases hf : filterItem i with
      | none => rw [hf] at this; simp [this, ih]
      | some j => rw [hf] at this; simp [subPathsL, this, ih]
end

theorem inProject_iff (root : Nodes) (p : List Str) (es : Nodes) :
    InProject root p es ↔ Entered (fun _ => false) [] root p es := by
  constructor
  · rintro ⟨h1, h2⟩
    refine ⟨h1, ?_⟩
    intro q hq _
    refine ⟨rfl, ?_⟩
    intro e
    simp only [List.nil_append] at e; subst e
    obtain ⟨r, rfl⟩ := hq
    exact h2 rfl
  · rintro ⟨h1, h2⟩
    refine ⟨h1, ?_⟩
    intro hv
    cases p with
    | nil => cases hv
    | cons m p =>
      injection hv with hv
      exact (h2 [m] (by simp) (by simp)).2 (by simp [hv])

theorem hasCase_of_test {p : List Str} {es : Nodes} {n : Str} (h : n ∈ pkgTests es) : HasCase (fun _ => false) p es := by
  rw [mem_pkgTests] at h
  obtain ⟨f, ds, h1, h2, d, h3, h4, _⟩ := h
  exact ⟨f, ds, h1, rfl, h2, d, h3, C64_listed d h4⟩

theorem at_append {ns es t : Nodes} {p q : List Str} (h1 : At ns p es) (h2 : At es q t) : At ns (p ++ q) t := by
  induction h1 with
  | here => exact h2
  | down hm _ ih => exact .down hm (ih h2)

theorem at_unique {ns a b : Nodes} {p : List Str} (ok : ns.Ok) (h1 : At ns p a) (h2 : At ns p b) : a = b := by
  have := find_at h1 ok
  rw [find_at h2 ok] at this
  injection this with h; exact h.symm

theorem at_split {ns t : Nodes} {p q : List Str} (h : At ns (p ++ q) t) : ∃ es, At ns p es ∧ At es q t := by
  induction p generalizing ns with
  | nil => exact ⟨ns, .here, h⟩
  | cons n p ih =>
    cases h with
    | down hm h =>
      obtain ⟨es, a, b⟩ := ih h
      exact ⟨es, .down hm a, b⟩

theorem goTestRun_dir {root : Nodes} {dirs : List (List Str)} {run : Option Str} {q : List Str} {n : Str}
    (h : (q, n) ∈ goTestRun root dirs run) : q ∈ dirs ∨ dirs = [] ∧ q = [] := by
  unfold goTestRun at h
  rw [List.mem_flatMap] at h
  obtain ⟨p, hp, h⟩ := h
  split at h
  · simp at h
  · simp only [List.mem_map, Prod.mk.injEq] at h
    obtain ⟨_, _, rfl, rfl⟩ := h
    split at hp
    · rename_i e; right; exact ⟨e, by simpa using hp⟩
    · exact .inl hp

theorem entered_append {ex : List Str → Bool} {root t u : Nodes} {p s : List Str} (h1 : Entered ex [] root p t)
    (h2 : Entered ex p t s u) : Entered ex [] root (p ++ s) u := by
  refine ⟨at_append h1.1 h2.1, ?_⟩
  intro q hq hne
  by_cases hl : q.length ≤ p.length
  · exact h1.2 q (List.prefix_of_prefix_length_le hq (List.prefix_append _ _) hl) hne
  · obtain ⟨r, rfl⟩ := List.prefix_of_prefix_length_le (List.prefix_append p s) hq (by omega)
    have e : r ≠ [] := by rintro rfl; simp at hl
    have := h2.2 r ((List.prefix_append_right_inj p).mp hq) e
    simpa using this

theorem run_inProject (rootName : Str) (root : Nodes) (i : Item)
    (hi : Within i (scanTests (fun _ => false) rootName root)) (hk : i.kind = .dir) (q : List Str) (n : Str)
    (h : (q, n) ∈ runItem root i) : ∃ es, InProject root q es := by
  have g := good_within hi (by rw [scanTests_eq]; exact .root)
  have key : ∀ name p t, Entered (fun _ => false) [] root p t →
      (q, n) ∈ runItem root (dirItem (fun _ => false) name p t) → ∃ es, InProject root q es := by
    intro name p t he h
    have h : (q, n) ∈ goTestRun root (subPaths (dirItem (fun _ => false) name p t)) none := h
    rcases goTestRun_dir h with h | ⟨_, rfl⟩
    · unfold dirItem at h
      rw [subPaths, List.mem_append, filter_subPaths_nodes, mem_subPaths_scan] at h
      rcases h with h | ⟨s, u, _, rfl, h2, _⟩
      · split at h
        · simp at h; subst h; exact ⟨t, (inProject_iff ..).mpr he⟩
        · simp at h
      · exact ⟨u, (inProject_iff ..).mpr (entered_append he h2)⟩
    · exact ⟨root, (inProject_iff ..).mpr (entered_here _ _ _)⟩
  cases g with
  | root => exact key rootName [] root (entered_here _ _ _) h
  | @dir name p t hne he hf => exact key name p t he h
  | file => rw [fileItem_eq] at hk; cases hk
  | case => cases hk

theorem run_dir (rootName : Str) (root : Nodes) (ok : root.Ok) (i : Item)
    (hi : Within i (scanTests (fun _ => false) rootName root)) (hk : i.kind = .dir) (q : List Str) (es : Nodes)
    (hq : InProject root q es) (n : Str) :
    (q, n) ∈ runItem root i ↔ i.rel <+: q ∧ n ∈ pkgTests es := by
  have g := good_within hi (by rw [scanTests_eq]; exact .root)
  -- the directories of an item
  have key : ∀ name p t, Entered (fun _ => false) [] root p t →
      (p ≠ [] → (filterItems (scan (fun _ => false) p t).1).toList ≠ []) →
      ((q, n) ∈ runItem root (dirItem (fun _ => false) name p t) ↔ p <+: q ∧ n ∈ pkgTests es) := by
    intro name p t he hne
    have paths : ∀ r, r ∈ subPaths (dirItem (fun _ => false) name p t) ↔
        ∃ s u, r = p ++ s ∧ Entered (fun _ => false) p t s u ∧ HasCase (fun _ => false) r u := by
      intro r
      unfold dirItem
      rw [subPaths, List.mem_append, filter_subPaths_nodes, mem_subPaths_scan]
      constructor
      · rintro (h | ⟨s, u, _, h1, h2, h3⟩)
        · split at h
          · rename_i hc
            simp at hc h
            subst h
            rw [scan_hasCase] at hc
            exact ⟨[], t, by simp, entered_here _ _ _, hc⟩
          · simp at h
        · exact ⟨s, u, h1, h2, h3⟩
      · rintro ⟨s, u, rfl, h2, h3⟩
        by_cases e : s = []
        · subst e
          have : u = t := by cases h2.1; rfl
          subst this
          left
          simp at h3 ⊢
          rw [scan_hasCase]; exact h3
        · exact .inr ⟨s, u, e, rfl, h2, h3⟩
    have run : runItem root (dirItem (fun _ => false) name p t) =
        goTestRun root (subPaths (dirItem (fun _ => false) name p t)) none := rfl
    rw [run, mem_goTestRun root ok _ _ q n es hq.1]
    constructor
    · rintro ⟨h1, h2, _⟩
      refine ⟨?_, h2⟩
      rcases h1 with h1 | ⟨h1, rfl⟩
      · rw [paths] at h1
        obtain ⟨s, u, rfl, _⟩ := h1
        exact List.prefix_append _ _
      · -- no directories: only the root
        by_cases e : p = []
        · subst e; exact List.prefix_refl _
        · exfalso
          have := nonempty_nodes _ t p (hne e)
          unfold dirItem at h1
          rw [subPaths, filter_subPaths_nodes] at h1
          simp only [List.append_eq_nil_iff] at h1
          rcases this with h | h
          · simp [h] at h1
          · exact h h1.2
    · rintro ⟨⟨s, rfl⟩, h2⟩
      refine ⟨.inl ?_, h2, by simp⟩
      rw [paths]
      obtain ⟨t', h3, h4⟩ := at_split hq.1
      have : t' = t := at_unique ok h3 he.1
      subst this
      refine ⟨s, es, rfl, ⟨h4, ?_⟩, hasCase_of_test h2⟩
      intro r hr hr'
      refine ⟨rfl, ?_⟩
      intro e
      have := hq.2
      obtain ⟨r', rfl⟩ := hr
      rw [← List.append_assoc, e] at this
      exact this rfl
  cases g with
  | root => exact key rootName [] root (entered_here _ _ _) (fun h => absurd rfl h)
  | @dir name p t hne he hf => exact key name p t he (fun _ => hf)
  | file => rw [fileItem_eq] at hk; cases hk
  | case => cases hk

/-- **C64 (part).** If nothing is excluded: running a directory of the tree runs all tests of this directory and of the
    directories of the project below it, and nothing else. -/
theorem C64_dir_partial (rootName : Str) (root : Nodes) (ok : root.Ok) (i : Item)
    (hi : Within i (scanTests (fun _ => false) rootName root)) (hk : i.kind = .dir) (q : List Str) (n : Str) :
    (q, n) ∈ runItem root i ↔ i.rel <+: q ∧ ∃ es, InProject root q es ∧ n ∈ pkgTests es := by
  constructor
  · intro h
    obtain ⟨es, hq⟩ := run_inProject rootName root i hi hk q n h
    have := (run_dir rootName root ok i hi hk q es hq n).mp h
    exact ⟨this.1, es, hq, this.2⟩
  · rintro ⟨h1, es, hq, h2⟩
    exact (run_dir rootName root ok i hi hk q es hq n).mpr ⟨h1, h2⟩

/-- **C64.** Running a file of the tree runs, in its directory and nowhere else, all its tests; with one test in it or none,
    nothing else. -/
theorem C64_file_partial (root : Nodes) (ok : root.Ok) (p : List Str) (es : Nodes)
    (hp : InProject root p es) (file : Str) (ds : List Decl)
    (tame : ∀ d ∈ ds, listed d = true → ∀ c ∈ d.name, Tame c) :
    (∀ n ∈ pkgTests es, (∃ d ∈ ds, listed d = true ∧ d.name = n) → (p, n) ∈ runItem root (fileItem p file (some ds))) ∧
    ((ds.filter listed).length ≤ 1 → ∀ n ∈ pkgTests es, n ≠ [] → (p, n) ∈ runItem root (fileItem p file (some ds)) →
      ∃ d ∈ ds, listed d = true ∧ d.name = n) ∧
    (∀ q n, (q, n) ∈ runItem root (fileItem p file (some ds)) → q = p ∧ n ∈ pkgTests es) := by
  have run : runItem root (fileItem p file (some ds)) =
      goTestRun root [p] (some (formatRunNames ((ds.filter listed).map Decl.name))) := by
    rw [fileItem_eq]
    unfold runItem testPaths
    simp only [toList_ofList, fileCases, List.filterMap_map]
    congr 1
    · simp
    · simp only [Option.map_some]
      congr 2
      rw [← List.filterMap_eq_map]
      rfl
  have tm : ∀ n ∈ (ds.filter listed).map Decl.name, ∀ c ∈ n, Tame c := by
    intro n hn
    simp at hn
    obtain ⟨d, ⟨h1, h2⟩, rfl⟩ := hn
    exact tame d h1 h2
  rw [run]
  refine ⟨?_, ?_, ?_⟩
  rotate_right
  · intro q n hr
    have : q = p := by simpa using goTestRun_dir hr
    subst this
    rw [mem_goTestRun root ok _ _ q _ es hp.1] at hr
    exact ⟨rfl, hr.2.1⟩
  · rintro n hn ⟨d, hd, hl, rfl⟩
    rw [mem_goTestRun root ok _ _ p _ es hp.1]
    refine ⟨by simp, hn, ?_⟩
    intro r hr; injection hr with hr; subst hr
    exact C64_select_wanted _ tm _ (by simp; exact ⟨d, ⟨hd, hl⟩, rfl⟩)
  · intro hlen n _ hn0 hrun
    rw [mem_goTestRun root ok _ _ p _ es hp.1] at hrun
    have hs := hrun.2.2 _ rfl
    match hds : ds.filter listed, hlen with
    | [], _ =>
      rw [hds] at hs
      exact absurd ((C64_select_none n).mp hs) hn0
    | [d], _ =>
      rw [hds] at hs tm
      have := (C64_select_one d.name (tm d.name (by simp)) n).mp hs
      have hm : d ∈ ds.filter listed := by rw [hds]; simp
      rw [List.mem_filter] at hm
      exact ⟨d, hm.1, hm.2, this.symm⟩

/-- **C64.** Running a single test of the tree runs it and no other test. -/
theorem C64_case (root : Nodes) (ok : root.Ok) (p : List Str) (es : Nodes)
    (hp : InProject root p es) (file : Str) (name : Str) (tame : ∀ c ∈ name, Tame c) (h : Bool) (cs : Items) (q : List Str) (n : Str) :
    (q, n) ∈ runItem root (.mk .case name name (p ++ [file]) h cs) ↔ q = p ∧ n = name ∧ name ∈ pkgTests es := by
  have run : runItem root (.mk .case name name (p ++ [file]) h cs) = goTestRun root [p] (some (formatRunNames [name])) := by
    unfold runItem testPaths
    simp
  rw [run]
  constructor
  · intro hr
    have : q = p := by simpa using goTestRun_dir hr
    subst this
    rw [mem_goTestRun root ok _ _ q _ es hp.1] at hr
    obtain ⟨_, h1, h2⟩ := hr
    have := (C64_select_one name tame n).mp (h2 _ rfl)
    exact ⟨rfl, this, this ▸ h1⟩
  · rintro ⟨rfl, h2, h1⟩
    subst h2
    rw [mem_goTestRun root ok _ _ q _ es hp.1]
    refine ⟨by simp, h1, ?_⟩
    intro r hr; injection hr with hr; subst hr
    exact (C64_select_one n tame n).mpr rfl

/-- **C64.** Running a subtest of the tree starts, in the directory of its file, its test; also the tests that begin with the
    name of this test. Which of their subtests are run, `C64_select_sub` says. -/
theorem C64_subtest_partial (root : Nodes) (ok : root.Ok) (p : List Str) (es : Nodes)
    (hp : InProject root p es) (file : Str) (test name : Str) (subs : List Str) (hs : subs ≠ [])
    (tame : ∀ n ∈ test :: subs, ∀ c ∈ n, Tame c) (h : Bool) (cs : Items) (q : List Str) (n : Str) :
    (q, n) ∈ runItem root (.mk .case name (joinSlash (test :: subs)) (p ++ [file]) h cs) ↔ q = p ∧ n ∈ pkgTests es ∧ test <+: n := by
  have hne : joinSlash (test :: subs) ≠ [] := by
    cases subs with
    | nil => exact absurd rfl hs
    | cons m l => simp [joinSlash]
  have run : runItem root (.mk .case name (joinSlash (test :: subs)) (p ++ [file]) h cs) =
      goTestRun root [p] (some (formatRunNames [joinSlash (test :: subs)])) := by
    unfold runItem testPaths
    simp [hne]
  have sel : ∀ n, selected (formatRunNames [joinSlash (test :: subs)]) [n] = true ↔ test <+: n := by
    intro n
    rw [C64_select_sub test subs hs tame]
    cases subs with
    | nil => exact absurd rfl hs
    | cons m l => cases l <;> simp [Follows]
  rw [run]
  constructor
  · intro hr
    have : q = p := by simpa using goTestRun_dir hr
    subst this
    rw [mem_goTestRun root ok _ _ q _ es hp.1] at hr
    obtain ⟨_, h1, h2⟩ := hr
    exact ⟨rfl, h1, (sel n).mp (h2 _ rfl)⟩
  · rintro ⟨rfl, h1, h2⟩
    rw [mem_goTestRun root ok _ _ q _ es hp.1]
    refine ⟨by simp, h1, ?_⟩
    intro r hr; injection hr with hr; subst hr
    exact (sel n).mpr h2

/-! ### Concrete cases -/

def exRoot : Nodes :=
  .cons (.dir "a".toList false (.cons (.file "x_test.go".toList (some [{ name := "TestX".toList }])) .nil))
  (.cons (.dir "b".toList true (.cons (.file "y_test.go".toList (some [{ name := "TestY".toList }])) .nil))
  (.cons (.dir "c".toList false (.cons (.file "c.go".toList (some [])) .nil))
  (.cons (.file "m_test.go".toList (some [{ name := "TestA".toList }, { name := "TestB".toList }]))
  (.cons (.file "n_test.go".toList (some [{ name := "TestA2".toList }])) .nil))))

example : exRoot.Ok := by
  simp only [exRoot, Nodes.Ok, Node.Ok, Nodes.toList, Node.name, List.mem_cons, List.not_mem_nil, or_false, forall_eq_or_imp,
    forall_eq, false_imp_iff, implies_true, and_true, true_and]
  decide

/-- All tests but those in another module. -/
example : runItem exRoot (scanTests (fun _ => false) "m".toList exRoot) =
    [([], "TestA".toList), ([], "TestB".toList), ([], "TestA2".toList), (["a".toList], "TestX".toList)] := by decide

example : InProject exRoot ["a".toList] (.cons (.file "x_test.go".toList (some [{ name := "TestX".toList }])) .nil) :=
  ⟨.down (by simp [exRoot, Nodes.toList]) .here, by decide⟩

/-- A test of another file is run with those of this file. -/
theorem C64_counterexample_file :
    ([], "TestA2".toList) ∈ runItem exRoot
      (fileItem [] "m_test.go".toList (some [{ name := "TestA".toList }, { name := "TestB".toList }])) := by decide

/-- A file is excluded: its tests are run with the directory. -/
theorem C64_counterexample_excluded :
    ([], "TestA2".toList) ∈ runItem exRoot (scanTests (fun p => p = ["n_test.go".toList]) "m".toList exRoot) := by decide

end Verif.Cmd.Explorer
