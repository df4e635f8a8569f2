/-
**C87**, second part: the files that `insert-trap` gives to the compiler.
-/
import Verif.Cmd.ToolExecMain

namespace Verif.Cmd.ToolExec
open Verif.Text Verif.Text.EditSpec Verif.Cmd.ToolExec.Spec

/-! ### Sources with traps -/

def ins (pos : Nat) (new : Str) : Edit Char := ⟨pos, pos, new⟩

theorem insert_pos (b : Buffer Char) (pos : Nat) (new : Str) (h : pos ≤ b.old.length) :
    b.insert pos new = some ⟨b.old, b.q ++ [ins pos new]⟩ := by
  rw [Buffer.insert, if_neg (by omega)]
  rfl

theorem fold_inserts (text : Str) (l : List Nat) (hl : ∀ x ∈ l, x ≤ text.length) (q : List (Edit Char)) :
    l.foldlM (fun b (pos : Nat) => b.insert pos trapText) (⟨text, q⟩ : Buffer Char) = some ⟨text, q ++ l.map fun x => ins x trapText⟩ := by
  induction l generalizing q with
  | nil => simp
  | cons x l ih =>
    rw [List.foldlM_cons, insert_pos _ _ _ (hl x List.mem_cons_self)]
    show List.foldlM _ _ l = _
    rw [ih (fun y hy => hl y (List.mem_cons_of_mem _ hy))]
    simp

theorem fold_reachable (text : Str) (l : List Nat) (b b' : Buffer Char) (h : Reachable text b)
    (hf : l.foldlM (fun b (pos : Nat) => b.insert pos trapText) b = some b') : Reachable text b' := by
  induction l generalizing b with
  | nil => cases hf; exact h
  | cons x l ih =>
    rw [List.foldlM_cons] at hf
    cases hb : b.insert x trapText with
    | none => rw [hb] at hf; cases hf
    | some b₁ =>
      rw [hb] at hf
      exact ih b₁ (.insert _ _ h hb) hf

theorem insertions_compatible {es : List (Edit Char)} (h : ∀ e ∈ es, e.start = e.stop) : Compatible es := by
  induction es with
  | nil => exact List.Pairwise.nil
  | cons e l ih =>
    refine List.Pairwise.cons ?_ (ih fun x hx => h x (List.mem_cons_of_mem _ hx))
    intro x hx hc
    have h1 := h e List.mem_cons_self
    have h2 := h x (List.mem_cons_of_mem _ hx)
    unfold Conflict at hc
    omega

theorem at_insertions (text : Str) (p : Parse) (i : Nat) :
    at_ text ((p.bodies.map fun x => ins x trapText) ++ [ins p.nameEnd importText]) i =
      (p.bodies.filter (· = i)).flatMap (fun _ => trapText) ++ (if i = p.nameEnd then importText else []) ++ (text[i]?).toList := by
  have hall : ∀ e ∈ (p.bodies.map fun x => ins x trapText) ++ [ins p.nameEnd importText], e.start = e.stop := by
    intro e he
    rcases List.mem_append.mp he with he | he
    · obtain ⟨x, _, rfl⟩ := List.mem_map.mp he; rfl
    · rw [List.mem_singleton.mp he]; rfl
  unfold at_
  have h1 : replacementAt ((p.bodies.map fun x => ins x trapText) ++ [ins p.nameEnd importText]) i = [] := by
    unfold replacementAt
    rw [List.filter_eq_nil_iff.mpr, List.flatMap_nil]
    intro e he
    have := hall e he
    simp
    omega
  have h2 : covered ((p.bodies.map fun x => ins x trapText) ++ [ins p.nameEnd importText]) i = false := by
    unfold covered
    rw [List.any_eq_false]
    intro e he
    have := hall e he
    simp
    omega
  have h3 : insertionsAt ((p.bodies.map fun x => ins x trapText) ++ [ins p.nameEnd importText]) i =
      (p.bodies.filter (· = i)).flatMap (fun _ => trapText) ++ (if i = p.nameEnd then importText else []) := by
    unfold insertionsAt
    rw [List.filter_append, List.flatMap_append]
    congr 1
    · induction p.bodies with
      | nil => rfl
      | cons x l ih =>
        rw [List.map_cons]
        by_cases hx : x = i
        · subst hx
          rw [List.filter_cons_of_pos (by simp [ins]), List.filter_cons_of_pos (by simp), List.flatMap_cons, List.flatMap_cons, ih]
          rfl
        · rw [List.filter_cons_of_neg (by simp [ins, hx]), List.filter_cons_of_neg (by simp [hx]), ih]
    · by_cases hx : i = p.nameEnd
      · subst hx
        rw [if_pos rfl, List.filter_cons_of_pos (by simp [ins])]
        simp [ins]
      · rw [if_neg hx, List.filter_cons_of_neg (by simp [ins, Ne.symm hx])]
        rfl
  rw [h1, h2, h3]
  simp

/-- **C87** (traps) The file that is compiled in place of a source has the import behind the package clause, the trap at the beginning of
    every function's body, and otherwise exactly the source's text. -/
theorem C87_trapped (parse : Str → Option Parse) (text : Str) (p : Parse) (hp : parse text = some p) (hw : Spec.Parse.Within p text) :
    inject parse text = some (if p.bodies = [] then none else some (trapped text p)) := by
  rw [inject, hp]
  simp only
  by_cases hb : p.bodies = []
  · rw [if_pos hb, if_pos hb]
  rw [if_neg hb, if_neg hb]
  have hf := fold_inserts text p.bodies hw.2 []
  rw [List.nil_append] at hf
  have hr := fold_reachable text p.bodies _ _ .new hf
  rw [show (Buffer.mk' text) = (⟨text, []⟩ : Buffer Char) from rfl, hf]
  simp only
  have hi := insert_pos ⟨text, p.bodies.map fun x => ins x trapText⟩ p.nameEnd importText hw.1
  rw [hi]
  simp only
  have hr' := Reachable.insert _ _ hr hi
  have := (C27_bytes hr').1 (insertions_compatible fun e he => by
    rcases List.mem_append.mp he with he | he
    · obtain ⟨x, _, rfl⟩ := List.mem_map.mp he; rfl
    · rw [List.mem_singleton.mp he]; rfl)
  rw [this, Option.map_some]
  congr 2
  unfold edited trapped
  congr 1
  funext i
  exact at_insertions text p i

theorem no_newline_trap : trapText.count '\n' = 0 := by decide +kernel
theorem no_newline_import : importText.count '\n' = 0 := by decide +kernel

/-- **C87** (lines) What stands on a line of the source stands on the same line of the file that is compiled: in front of position `i` both
    have the same number of newlines. -/
theorem C87_lines (text : Str) (p : Parse) (i : Nat) :
    ∃ before after, trapped text p = before ++ after ∧ before.count '\n' = (text.take i).count '\n' ∧
      (∀ c, text[i]? = some c → ∃ ts rest, after = ts ++ c :: rest ∧ ts.count '\n' = 0) := by
  let f : Nat → Str := fun i => (p.bodies.filter (· = i)).flatMap (fun _ => trapText) ++ (if i = p.nameEnd then importText else [])
  have hf0 : ∀ i, (f i).count '\n' = 0 := by
    intro i
    have h1 : ∀ l : List Nat, (l.flatMap fun _ => trapText).count '\n' = 0 := by
      intro l
      induction l with
      | nil => rfl
      | cons x l ih => rw [List.flatMap_cons, List.count_append, ih, no_newline_trap]
    show ((p.bodies.filter (· = i)).flatMap (fun _ => trapText) ++ (if i = p.nameEnd then importText else [])).count '\n' = 0
    rw [List.count_append, h1]
    split
    · rw [no_newline_import]
    · rfl
  have hcount : ∀ n, ((List.range n).flatMap fun i => f i ++ (text[i]?).toList).count '\n' = (text.take n).count '\n' := by
    intro n
    induction n with
    | zero => rfl
    | succ n ih =>
      rw [List.range_succ, List.flatMap_append, List.count_append, ih, List.flatMap_cons, List.flatMap_nil, List.append_nil,
        List.count_append, hf0, List.take_add_one, List.count_append, Nat.zero_add]
  by_cases hi : i < text.length + 1
  · have hr : List.range (text.length + 1) = List.range i ++ List.range' i (text.length + 1 - i) := by
      have := List.range'_append_1 (s := 0) (m := i) (n := text.length + 1 - i)
      rw [Nat.zero_add] at this
      rw [List.range_eq_range', List.range_eq_range', this]
      congr 1
      omega
    have e : trapped text p = ((List.range i).flatMap fun i => f i ++ (text[i]?).toList) ++
        ((List.range' i (text.length + 1 - i)).flatMap fun i => f i ++ (text[i]?).toList) := by
      rw [← List.flatMap_append, ← hr]
      rfl
    refine ⟨_, _, e, hcount i, ?_⟩
    intro c hc
    obtain ⟨k, hk⟩ : ∃ k, text.length + 1 - i = k + 1 := ⟨text.length - i, by omega⟩
    rw [hk, List.range'_succ, List.flatMap_cons, hc]
    exact ⟨f i, (List.range' (i + 1) k).flatMap fun i => f i ++ (text[i]?).toList, by simp, hf0 i⟩
  · refine ⟨trapped text p, [], by simp, ?_, ?_⟩
    · have := hcount (text.length + 1)
      rw [List.take_of_length_le (by omega)] at this
      rw [List.take_of_length_le (by omega), ← this]
      rfl
    · intro c hc
      rw [List.getElem?_eq_none (by omega)] at hc
      cases hc

/-! ### Temporary files -/

/-- The operation concerns this file. -/
def touches (p : List Str) : Op → Bool
  | .clear d => d.isPrefixOf p
  | .write d n _ => p = d ++ [n]

theorem apply_other (t : Tmp) (o : Op) (p : List Str) (h : touches p o = false) : o.apply t p = t p := by
  cases o with
  | clear d =>
    have : d.isPrefixOf p = false := h
    simp only [Op.apply, this]
    rfl
  | write d n text =>
    have : ¬ p = d ++ [n] := by simpa [touches] using h
    simp only [Op.apply, if_neg this]

theorem apply_same (t t' : Tmp) (o : Op) (p : List Str) (h : t p = t' p) : o.apply t p = o.apply t' p := by
  cases o with
  | clear d => simp only [Op.apply, h]
  | write d n text => simp only [Op.apply, h]

theorem run_same (t t' : Tmp) (ops : List Op) (p : List Str) (h : t p = t' p) : run t ops p = run t' ops p := by
  induction ops generalizing t t' with
  | nil => exact h
  | cons o l ih => exact ih _ _ (apply_same t t' o p h)

theorem run_filter (t : Tmp) (ops : List Op) (p : List Str) : run t ops p = run t (ops.filter (touches p)) p := by
  induction ops generalizing t with
  | nil => rfl
  | cons o l ih =>
    by_cases h : touches p o = true
    · rw [List.filter_cons_of_pos h]; exact ih _
    · rw [List.filter_cons_of_neg h]
      show run (o.apply t) l p = _
      rw [run_same _ t l p (apply_other t o p (by simpa using h))]
      exact ih t

theorem run_append (t : Tmp) (a b : List Op) : run t (a ++ b) = run (run t a) b := List.foldl_append

theorem run_untouched (t : Tmp) (ops : List Op) (p : List Str) (h : ∀ o ∈ ops, touches p o = false) : run t ops p = t p := by
  rw [run_filter, List.filter_eq_nil_iff.mpr (fun o ho => by rw [h o ho]; exact Bool.false_ne_true)]
  rfl

/-- The name that goes to the compiler: a temporary file for each source that has a function. -/
def nameFor (disk : Disk) (ps : Str → Parse) (f : Str) : Str :=
  if isSource f = true ∧ (ps f).bodies ≠ [] then tmpName (disk.dirOf f) (disk.nameOf f) else f

/-- The file can be read and parsed. -/
def Readable (disk : Disk) (parse : Str → Option Parse) (src : Str → Str) (ps : Str → Parse) (f : Str) : Prop :=
  disk.text f = some (src f) ∧ parse (src f) = some (ps f) ∧ Spec.Parse.Within (ps f) (src f)

/-- No source's directory is that of another's copy or above it, unless both lie in one directory; and two sources do not have one copy. -/
def Apart (disk : Disk) (files : List Str) : Prop :=
  ∀ f ∈ files, ∀ g ∈ files, isSource f = true → isSource g = true →
    (disk.dirOf f ≠ disk.dirOf g → ¬ disk.dirOf f <+: disk.dirOf g ++ [disk.nameOf g]) ∧
    (disk.dirOf f = disk.dirOf g → disk.nameOf f = disk.nameOf g → f = g)

theorem replace_spec (disk : Disk) (parse : Str → Option Parse) (src : Str → Str) (ps : Str → Parse) (files : List Str)
    (hr : ∀ f ∈ files, isSource f = true → Readable disk parse src ps f) (dirs : List (List Str)) :
    ∃ ops, replace disk parse dirs files = some (ops, files.map (nameFor disk ps)) ∧
      (∀ o ∈ ops, (∃ f ∈ files, isSource f = true ∧ disk.dirOf f ∉ dirs ∧ o = .clear (disk.dirOf f)) ∨
        ∃ f ∈ files, isSource f = true ∧ (ps f).bodies ≠ [] ∧ o = .write (disk.dirOf f) (disk.nameOf f) (trapped (src f) (ps f))) ∧
      (Apart disk files → ∀ f ∈ files, isSource f = true → (ps f).bodies ≠ [] →
        ∀ t, run t ops (disk.dirOf f ++ [disk.nameOf f]) = some (trapped (src f) (ps f))) ∧
      (∀ f l, files = f :: l → isSource f = true → disk.dirOf f ∉ dirs → ∃ ops', ops = .clear (disk.dirOf f) :: ops') := by
  induction files generalizing dirs with
  | nil => exact ⟨[], rfl, by simp, by simp, by simp⟩
  | cons f l ih =>
    have hrl : ∀ g ∈ l, isSource g = true → Readable disk parse src ps g := fun g hg => hr g (List.mem_cons_of_mem _ hg)
    by_cases hs : isSource f = true
    case neg =>
      obtain ⟨ops, h1, h2, h3, -⟩ := ih hrl dirs
      refine ⟨ops, ?_, ?_, ?_, ?_⟩
      · rw [replace, if_neg hs, h1, Option.map_some, List.map_cons, nameFor, if_neg (fun h => hs h.1)]
      · intro o ho
        rcases h2 o ho with ⟨g, hg, h⟩ | ⟨g, hg, h⟩
        · exact .inl ⟨g, List.mem_cons_of_mem _ hg, h⟩
        · exact .inr ⟨g, List.mem_cons_of_mem _ hg, h⟩
      · intro ha g hg hsg hb
        rcases List.mem_cons.mp hg with rfl | hg
        · exact absurd hsg hs
        · exact h3 (fun a ha' b hb' => ha a (List.mem_cons_of_mem _ ha') b (List.mem_cons_of_mem _ hb')) g hg hsg hb
      · intro f' l' e hs'
        cases e
        exact absurd hs' hs
    case pos =>
      obtain ⟨r1, r2, r3⟩ := hr f List.mem_cons_self hs
      have hi := C87_trapped parse (src f) (ps f) r2 r3
      let dirs' := if disk.dirOf f ∈ dirs then dirs else dirs ++ [disk.dirOf f]
      obtain ⟨ops, h1, h2, h3, -⟩ := ih hrl dirs'
      let pre := if disk.dirOf f ∈ dirs then [] else [Op.clear (disk.dirOf f)]
      let own := if (ps f).bodies = [] then [] else [Op.write (disk.dirOf f) (disk.nameOf f) (trapped (src f) (ps f))]
      have hsub : ∀ d, d ∉ dirs' → d ∉ dirs := by
        intro d hd hm
        apply hd
        show d ∈ (if disk.dirOf f ∈ dirs then dirs else dirs ++ [disk.dirOf f])
        split
        · exact hm
        · exact List.mem_append_left _ hm
      have hin : disk.dirOf f ∈ dirs' := by
        show disk.dirOf f ∈ (if disk.dirOf f ∈ dirs then dirs else dirs ++ [disk.dirOf f])
        split
        · assumption
        · exact List.mem_append_right _ List.mem_cons_self
      refine ⟨pre ++ own ++ ops, ?_, ?_, ?_, ?_⟩
      · rw [replace, if_pos hs, r1, Option.bind_some, hi]
        simp only
        by_cases hb : (ps f).bodies = []
        · rw [if_pos hb]
          simp only
          rw [show replace disk parse (if disk.dirOf f ∈ dirs then dirs else dirs ++ [disk.dirOf f]) l = _ from h1, Option.map_some,
            List.map_cons, show nameFor disk ps f = f from if_neg (fun h => h.2 hb)]
          show some (pre ++ ops, _) = some (pre ++ (if (ps f).bodies = [] then _ else _) ++ ops, _)
          rw [if_pos hb, List.append_nil]
        · rw [if_neg hb]
          simp only
          rw [show replace disk parse (if disk.dirOf f ∈ dirs then dirs else dirs ++ [disk.dirOf f]) l = _ from h1, Option.map_some,
            List.map_cons, show nameFor disk ps f = tmpName (disk.dirOf f) (disk.nameOf f) from if_pos ⟨hs, hb⟩]
          show some (pre ++ _ :: ops, _) = some (pre ++ (if (ps f).bodies = [] then _ else _) ++ ops, _)
          rw [if_neg hb]
          simp
      · intro o ho
        rcases List.mem_append.mp ho with ho | ho
        · rcases List.mem_append.mp ho with ho | ho
          · left
            refine ⟨f, List.mem_cons_self, hs, ?_⟩
            have : o ∈ (if disk.dirOf f ∈ dirs then [] else [Op.clear (disk.dirOf f)]) := ho
            split at this
            · cases this
            · exact ⟨by assumption, List.mem_singleton.mp this⟩
          · right
            have : o ∈ (if (ps f).bodies = [] then [] else [Op.write (disk.dirOf f) (disk.nameOf f) (trapped (src f) (ps f))]) := ho
            split at this
            · cases this
            · exact ⟨f, List.mem_cons_self, hs, by assumption, List.mem_singleton.mp this⟩
        · rcases h2 o ho with ⟨g, hg, hsg, hd, h⟩ | ⟨g, hg, h⟩
          · exact .inl ⟨g, List.mem_cons_of_mem _ hg, hsg, hsub _ hd, h⟩
          · exact .inr ⟨g, List.mem_cons_of_mem _ hg, h⟩
      · intro ha g hg hsg hb t
        have hal : Apart disk l := fun a ha' b hb' => ha a (List.mem_cons_of_mem _ ha') b (List.mem_cons_of_mem _ hb')
        by_cases hgl : g ∈ l
        · rw [run_append]
          exact h3 hal g hgl hsg hb _
        · have hgf : g = f := (List.mem_cons.mp hg).resolve_right hgl
          subst hgf
          rw [run_append, run_untouched]
          · rw [run_append]
            have : own = [Op.write (disk.dirOf g) (disk.nameOf g) (trapped (src g) (ps g))] := if_neg hb
            rw [this]
            show (Op.write (disk.dirOf g) (disk.nameOf g) (trapped (src g) (ps g))).apply _ _ = _
            simp only [Op.apply, if_true]
          · intro o ho
            rcases h2 o ho with ⟨k, hk, hsk, hd, rfl⟩ | ⟨k, hk, hsk, hbk, rfl⟩
            · have hne : disk.dirOf k ≠ disk.dirOf g := fun e => hd (e ▸ hin)
              have := (ha k (List.mem_cons_of_mem _ hk) g List.mem_cons_self hsk hsg).1 hne
              show (disk.dirOf k).isPrefixOf _ = false
              cases hx : (disk.dirOf k).isPrefixOf (disk.dirOf g ++ [disk.nameOf g]) with
              | false => rfl
              | true => exact absurd (List.isPrefixOf_iff_prefix.mp hx) this
            · show decide (disk.dirOf g ++ [disk.nameOf g] = disk.dirOf k ++ [disk.nameOf k]) = false
              rw [decide_eq_false_iff_not]
              intro e
              obtain ⟨e1, e2⟩ := List.append_inj' e rfl
              have := (ha k (List.mem_cons_of_mem _ hk) g List.mem_cons_self hsk hsg).2 e1.symm (List.singleton_inj.mp e2).symm
              exact hgl (this ▸ hk)
      · intro f' l' e _ hd
        cases e
        have : pre = [Op.clear (disk.dirOf f)] := if_neg hd
        rw [this]
        exact ⟨own ++ ops, rfl⟩

theorem split_files (flags files : List Str) (last : Str) (hl : last.head? = some '-') (hf : ∀ f ∈ files, f.head? ≠ some '-') :
    splitFiles (flags ++ last :: files) = (flags ++ [last], files) := by
  have h1 : ((flags ++ last :: files).reverse.takeWhile fun a => a.head? ≠ some '-') = files.reverse := by
    rw [List.reverse_append, List.reverse_cons, List.append_assoc, List.takeWhile_append_of_pos, List.singleton_append,
      List.takeWhile_cons_of_neg (by simp [hl]), List.append_nil]
    intro a ha
    simpa using hf a (List.mem_reverse.mp ha)
  rw [splitFiles, h1, List.reverse_reverse]
  have h2 : (flags ++ last :: files).length - files.length = (flags ++ [last]).length := by
    simp only [List.length_append, List.length_cons, List.length_nil]
    omega
  rw [h2, show flags ++ last :: files = (flags ++ [last]) ++ files by simp, List.take_left]

/-- **C87** (`insert-trap`: what is compiled) When go compiles a package that was asked for – one deep enough, see `C87_shallow` – the
    compiler is run with its flags as they are and, in place of every source that has functions, a file with the source's text and traps;
    test files, files without functions and others are given as they are. -/
theorem C87_insert_partial (disk : Disk) (parse : Str → Option Parse) (src : Str → Str) (ps : Str → Parse) (opts : List Ins)
    (hg : ∀ i ∈ opts, i.Good) (cmd : Str) (hc : Compiler cmd) (flags files : List Str) (last : Str) (hl : last.head? = some '-')
    (hf : ∀ f ∈ files, f.head? ≠ some '-') (hne : files ≠ []) (hv : ¬ AsksVersion (flags ++ last :: files))
    (pkg : Str) (hp : Names (flags ++ last :: files) pkg) (hrt : pkg ≠ "runtime".toList) (hrt' : ¬ "runtime/".toList <+: pkg)
    (hdeep : 3 < pkg.count '/') (hask : opts.filterMap Ins.pkg? = [] ∨ pkg ∈ opts.filterMap Ins.pkg?)
    (hr : ∀ f ∈ files, isSource f = true → Readable disk parse src ps f) (ha : Apart disk files) :
    ∃ ops, toolExecMain disk parse (insLine opts cmd (flags ++ last :: files)) =
        (ops, .runs cmd (flags ++ last :: files.map (nameFor disk ps)) []) ∧
      ∀ f ∈ files, isSource f = true → (ps f).bodies ≠ [] →
        ∀ t, run t ops (disk.dirOf f ++ [disk.nameOf f]) = some (trapped (src f) (ps f)) := by
  rw [← compile_iff] at hc
  rw [← version_false] at hv
  obtain ⟨ops, h1, -, h3, -⟩ := replace_spec disk parse src ps files hr []
  refine ⟨ops, ?_, h3 ha⟩
  have hp' : pkg ≠ [] := by rintro rfl; revert hdeep; decide
  have hsys : ¬ isSystemPkg pkg = true := by
    rw [isSystemPkg]
    simp only [Bool.or_eq_true, decide_eq_true_eq, List.isPrefixOf_iff_prefix, not_or]
    exact ⟨⟨hrt, hrt'⟩, by omega⟩
  rw [insert_eq disk parse opts hg, if_neg (by rw [hc, hv]; decide)]
  simp only
  rw [ins_names opts hg cmd _ pkg hc hp, if_neg hp', if_neg hsys, if_neg (by
    rintro ⟨a, b⟩
    rcases hask with h | h
    · exact a h
    · exact b h), split_files flags files last hl hf]
  simp only
  rw [if_neg hne, h1]
  simp

/-- **C87** (failing) A source that cannot be read or parsed makes the compilation fail; it is not compiled without traps. -/
theorem C87_insert_fails (disk : Disk) (parse : Str → Option Parse) (files : List Str) (dirs : List (List Str)) (f : Str) (hf : f ∈ files)
    (hs : isSource f = true) (h : (disk.text f).bind (inject parse) = none) : replace disk parse dirs files = none := by
  induction files generalizing dirs with
  | nil => cases hf
  | cons g l ih =>
    rw [replace]
    rcases List.mem_cons.mp hf with rfl | hf
    · rw [if_pos hs]
      simp only
      rw [h]
    · split
      · simp only
        split
        · rfl
        · rw [ih _ hf]; rfl
        · rw [ih _ hf]; rfl
      · rw [ih _ hf]; rfl

/-- Distinct copies have distinct names: the names of components have no slash. -/
theorem tmpName_inj {d d' : List Str} {n n' : Str} (h : ∀ c ∈ d ++ [n], '/' ∉ c) (h' : ∀ c ∈ d' ++ [n'], '/' ∉ c)
    (e : tmpName d n = tmpName d' n') : d ++ [n] = d' ++ [n'] := by
  have key : ∀ a b : List Str, (∀ c ∈ a, '/' ∉ c) → (∀ c ∈ b, '/' ∉ c) →
      (a.map fun c => '/' :: c).flatten = (b.map fun c => '/' :: c).flatten → a = b := by
    intro a
    induction a with
    | nil =>
      intro b _ _ h
      cases b with
      | nil => rfl
      | cons => cases h
    | cons x l ih =>
      intro b ha hb h
      cases b with
      | nil => cases h
      | cons y m =>
        rw [List.map_cons, List.flatten_cons, List.map_cons, List.flatten_cons, List.cons_append, List.cons_append] at h
        have h := (List.cons.inj h).2
        have hcut : ∀ (x : Str) (l : List Str), '/' ∉ x →
            (x ++ (l.map fun c => '/' :: c).flatten).takeWhile (· ≠ '/') = x ∧
            (x ++ (l.map fun c => '/' :: c).flatten).dropWhile (· ≠ '/') = (l.map fun c => '/' :: c).flatten := by
          intro x l hx
          have hp : ∀ c ∈ x, (decide (c ≠ '/')) = true := by
            intro c hc
            simp
            rintro rfl
            exact hx hc
          cases l with
          | nil =>
            simp only [List.map_nil, List.flatten_nil, List.append_nil]
            constructor
            · have := List.takeWhile_append_of_pos (p := fun c : Char => decide (c ≠ '/')) hp (l₂ := [])
              simpa using this
            · have := List.dropWhile_append_of_pos (p := fun c : Char => decide (c ≠ '/')) hp (l₂ := [])
              simpa using this
          | cons z l =>
            rw [List.takeWhile_append_of_pos hp, List.dropWhile_append_of_pos hp, List.map_cons, List.flatten_cons, List.cons_append,
              List.takeWhile_cons_of_neg (by simp), List.dropWhile_cons_of_neg (by simp)]
            simp
        have h1 := hcut x l (ha x List.mem_cons_self)
        have h2 := hcut y m (hb y List.mem_cons_self)
        rw [h] at h1
        have e1 : x = y := h1.1.symm.trans h2.1
        have e2 := h1.2.symm.trans h2.2
        rw [e1, ih m (fun c hc => ha c (List.mem_cons_of_mem _ hc)) (fun c hc => hb c (List.mem_cons_of_mem _ hc)) e2]
  exact key _ _ h h' (List.append_cancel_left e)

/-! ### At the same time -/

theorem interleaved_filter {a b s : List Op} {p : List Str} (h : Interleaved a b s) (hb : ∀ o ∈ b, touches p o = false) :
    s.filter (touches p) = a.filter (touches p) := by
  induction h with
  | done b => rfl
  | left x h ih =>
    rw [List.filter_cons, List.filter_cons, ih hb]
  | right x h ih =>
    rw [List.filter_cons, hb x List.mem_cons_self]
    simp only [Bool.false_eq_true, if_false]
    exact ih fun o ho => hb o (List.mem_cons_of_mem _ ho)

/-- **C87** (at the same time) go compiles several packages at once. Whatever is done for other packages, in whatever order: as long as
    their directories are neither the package's nor above it, the compiler finds every copy as it was written. -/
theorem C87_parallel_partial (disk : Disk) (parse : Str → Option Parse) (src : Str → Str) (ps : Str → Parse) (files others : List Str)
    (hr : ∀ f ∈ files, isSource f = true → Readable disk parse src ps f)
    (hr' : ∀ f ∈ others, isSource f = true → Readable disk parse src ps f) (ha : Apart disk files)
    (hd : ∀ f ∈ files, ∀ g ∈ others, ¬ disk.dirOf g <+: disk.dirOf f ++ [disk.nameOf f])
    (ops ops' : List Op) (names names' : List Str) (h : replace disk parse [] files = some (ops, names))
    (h' : replace disk parse [] others = some (ops', names')) (s : List Op) (hs : Interleaved ops ops' s) (t : Tmp) :
    ∀ f ∈ files, isSource f = true → (ps f).bodies ≠ [] → run t s (disk.dirOf f ++ [disk.nameOf f]) = some (trapped (src f) (ps f)) := by
  obtain ⟨o1, h1, -, h3, -⟩ := replace_spec disk parse src ps files hr []
  obtain ⟨o2, h4, h5, -, -⟩ := replace_spec disk parse src ps others hr' []
  rw [h] at h1
  rw [h'] at h4
  cases h1
  cases h4
  intro f hf hsf hb
  rw [run_filter, interleaved_filter hs, ← run_filter]
  · exact h3 ha f hf hsf hb t
  · intro o ho
    rcases h5 o ho with ⟨g, hg, _, _, rfl⟩ | ⟨g, hg, _, _, rfl⟩
    · show (disk.dirOf g).isPrefixOf _ = false
      cases hx : (disk.dirOf g).isPrefixOf (disk.dirOf f ++ [disk.nameOf f]) with
      | false => rfl
      | true => exact absurd (List.isPrefixOf_iff_prefix.mp hx) (hd f hf g hg)
    · show decide (disk.dirOf f ++ [disk.nameOf f] = disk.dirOf g ++ [disk.nameOf g]) = false
      rw [decide_eq_false_iff_not]
      intro e
      exact hd f hf g hg ⟨[disk.nameOf g], e.symm⟩

theorem interleaved_after (a b : List Op) (x : Op) : Interleaved a (x :: b) (a ++ [x]) := by
  induction a with
  | nil => exact .right x (.done b)
  | cons y l ih => exact .left y ih

/-- **C87** (the race) If another compilation has a source in the same directory – a package and its test variant have – or in one above it,
    there is an order in which the copies are gone when the compiler looks for them. -/
theorem C87_race (disk : Disk) (parse : Str → Option Parse) (src : Str → Str) (ps : Str → Parse) (files others : List Str) (g : Str)
    (hr' : ∀ f ∈ g :: others, isSource f = true → Readable disk parse src ps f) (hg : isSource g = true)
    (ops ops' : List Op) (names names' : List Str) (_ : replace disk parse [] files = some (ops, names))
    (h' : replace disk parse [] (g :: others) = some (ops', names')) (t : Tmp) :
    ∃ s, Interleaved ops ops' s ∧ ∀ f ∈ files, disk.dirOf g <+: disk.dirOf f → run t s (disk.dirOf f ++ [disk.nameOf f]) = none := by
  obtain ⟨o2, h4, -, -, h5⟩ := replace_spec disk parse src ps (g :: others) hr' []
  rw [h'] at h4
  cases h4
  obtain ⟨l, rfl⟩ := h5 g others rfl hg (by simp)
  refine ⟨ops ++ [.clear (disk.dirOf g)], interleaved_after _ _ _, ?_⟩
  intro f _ hd
  rw [run_append]
  show (Op.clear (disk.dirOf g)).apply _ _ = none
  have : (disk.dirOf g).isPrefixOf (disk.dirOf f ++ [disk.nameOf f]) = true :=
    List.isPrefixOf_iff_prefix.mpr (hd.trans (List.prefix_append _ _))
  simp only [Op.apply, this, if_true]

/-! ### Examples -/

/-- The parser, as far as the example needs it. -/
def exParse (text : Str) : Option Parse := if text = "package p\nfunc F() {}\n".toList then some ⟨9, [20]⟩ else none

def exDisk : Disk where
  dirOf := fun f => if f = "./b/c.go".toList then ["w".toList, "b".toList] else ["w".toList]
  nameOf := fun f => if f = "./b/c.go".toList then "c.go".toList else "a.go".toList
  text := fun _ => some "package p\nfunc F() {}\n".toList

example : (toolExecMain exDisk exParse (insLine [.pkgEq "a.b/c/d/e/f".toList] "/go/pkg/tool/compile".toList
    ["-p".toList, "a.b/c/d/e/f".toList, "-pack".toList, "./a.go".toList, "./a_test.go".toList])).2 =
    .runs "/go/pkg/tool/compile".toList ["-p".toList, "a.b/c/d/e/f".toList, "-pack".toList,
      "/tmp/runtime-xgo-trap/w/a.go".toList, "./a_test.go".toList] [] := by decide +kernel

example : inject exParse "package p\nfunc F() {}\n".toList =
    some (some "package p;import __xgo_trap_runtime \"runtime\"\nfunc F() {defer __xgo_trap_runtime.XgoTrap()();}\n".toList) := by
  decide +kernel

/-- The hypotheses of `C87_insert_partial` can be met. -/
example : Readable exDisk exParse (fun _ => "package p\nfunc F() {}\n".toList) (fun _ => ⟨9, [20]⟩) "./a.go".toList ∧
    Apart exDisk ["./a.go".toList] ∧ Names ["-p".toList, "a.b/c/d/e/f".toList] "a.b/c/d/e/f".toList := by
  refine ⟨⟨rfl, if_pos rfl, by unfold Spec.Parse.Within; decide +kernel⟩, ?_, [], [], rfl, by simp⟩
  intro f hf g hg _ _
  rw [List.mem_singleton.mp hf, List.mem_singleton.mp hg]
  exact ⟨fun h => absurd rfl h, fun _ _ => rfl⟩

/-- A package in `/w` and one in `/w/b`: the race. -/
example : exDisk.dirOf "./a.go".toList <+: exDisk.dirOf "./b/c.go".toList := by decide +kernel

end Verif.Cmd.ToolExec
