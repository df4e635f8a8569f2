import Verif.Instrument.CoverNotesProps
import Verif.Text.Cut
/-
C72: a program built with coverage.
-/
namespace Verif.Instrument.CoverNotes
open Verif.Text Verif.Text.EditSpec Spec

theorem linesBack_mem (max : Nat) : ∀ (s cur : Str) (res : List Str) (l : Str), l ∈ linesBack max s cur res →
    l ∈ res ∨ '\n' :: l <:+: s.reverse ++ cur := by
  intro s
  induction s with
  | nil => intro cur res l h; exact Or.inl h
  | cons c s ih =>
    intro cur res l h
    rw [linesBack] at h
    by_cases hc : c = '\n'
    · subst hc
      rw [if_pos rfl] at h
      simp only at h
      have hcur : '\n' :: cur <:+: ('\n' :: s).reverse ++ cur := ⟨s.reverse, [], by simp⟩
      by_cases hm : (cur :: res).length ≥ max
      · rw [if_pos hm] at h
        rcases List.mem_cons.1 h with h | h
        · rw [h]; exact Or.inr hcur
        · exact Or.inl h
      · rw [if_neg hm] at h
        rcases ih _ _ _ h with h | h
        · rcases List.mem_cons.1 h with h | h
          · rw [h]; exact Or.inr hcur
          · exact Or.inl h
        · refine Or.inr (h.trans ⟨[], '\n' :: cur, by simp⟩)
    · rw [if_neg hc] at h
      rcases ih _ _ _ h with h | h
      · exact Or.inl h
      · right; simpa using h

theorem findLines_mem {content line : Str} (h : line ∈ findLinesFromEnd content 3) : '\n' :: line <:+: content := by
  unfold findLinesFromEnd at h
  rw [if_neg (by decide)] at h
  split at h
  · cases h
  · rename_i s hs
    rcases linesBack_mem 3 _ _ _ _ h with h | h
    · cases h
    · have : content = s.reverse ++ ['\n'] := by
        have := congrArg List.reverse hs; simpa using this
      rw [this]
      simp only [List.append_nil] at h
      exact h.trans ⟨[], ['\n'], by simp⟩
  · rcases linesBack_mem 3 _ _ _ _ h with h | h
    · cases h
    · simpa using h

/-! ### The buffer of the cover tool -/

def insertion (c : Nat × Str) : Edit Char := ⟨c.1, c.1, c.2⟩

theorem addCounters_ok {old : Str} : ∀ (cs : List (Nat × Str)) (b : Buffer Char), Reachable old b → (∀ c ∈ cs, c.1 ≤ old.length) →
    ∃ b', addCounters cs b = some b' ∧ Reachable old b' ∧ b'.q = b.q ++ cs.map insertion := by
  intro cs
  induction cs with
  | nil => intro b h _; exact ⟨b, rfl, h, by simp⟩
  | cons c cs ih =>
    intro b h hc
    obtain ⟨pos, new⟩ := c
    have hold := (reachable_valid h).1
    have hle := hc (pos, new) (by simp)
    have hi : b.insert pos new = some { b with q := b.q ++ [⟨pos, pos, new⟩] } := by
      unfold Buffer.insert
      rw [if_neg (by simp only at hle; rw [hold]; omega)]
      simp
    obtain ⟨b', h1, h2, h3⟩ := ih _ (.insert _ _ h hi) fun c hc' => hc c (by simp [hc'])
    refine ⟨b', ?_, h2, by rw [h3]; simp [insertion]⟩
    rw [addCounters, hi]
    exact h1

theorem addEdits_ok {old : Str} : ∀ (es : List (Edit Char)) (b : Buffer Char), Reachable old b → (∀ e ∈ es, Valid old.length e) →
    ∃ b', addEdits es b = some b' ∧ Reachable old b' ∧ b'.q = b.q ++ es := by
  intro es
  induction es with
  | nil => intro b h _; exact ⟨b, rfl, h, by simp⟩
  | cons e es ih =>
    intro b h he
    have hold := (reachable_valid h).1
    have hv := he e (by simp)
    unfold Valid at hv
    have hi : b.replace e.start e.stop e.new = some { b with q := b.q ++ [e] } := by
      unfold Buffer.replace
      have e0 : (if (e.stop : Int) = -1 then (b.old.length : Int) else e.stop) = e.stop := if_neg (by omega)
      simp only [e0]
      rw [if_neg (by rw [hold]; omega)]
      simp
    obtain ⟨b', h1, h2, h3⟩ := ih _ (.replace _ _ _ h hi) fun e he' => he e (by simp [he'])
    refine ⟨b', ?_, h2, by rw [h3]; simp⟩
    rw [addEdits, hi]
    exact h1

theorem plainCover_eq {counters : Str → Str → List (Nat × Str)} {name old : Str} (h : ∀ c ∈ counters name old, c.1 ≤ old.length) :
    plainCover counters name old = some (edited old ((counters name old).map insertion)) := by
  obtain ⟨b, h1, h2, h3⟩ := addCounters_ok (counters name old) (Buffer.mk' old) .new h
  unfold plainCover
  rw [h1]
  simp only
  have hq : b.q = (counters name old).map insertion := by rw [h3]; simp [Buffer.mk']
  rw [← hq]
  refine (C27_bytes h2).1 ?_
  rw [hq]
  refine List.pairwise_map.2 (List.pairwise_of_forall fun a b => ?_)
  unfold Conflict insertion
  simp only
  omega

/-! ### The text with its tags -/

def tagged (t : Tag) (s : Str) : List (Char × Tag) := s.map fun c => (c, t)

theorem keep_append (ts : List Tag) (a b : List (Char × Tag)) : keep ts (a ++ b) = keep ts a ++ keep ts b := by simp [keep]

theorem keep_tagged (ts : List Tag) (t : Tag) (s : Str) : keep ts (tagged t s) = if ts.contains t then s else [] := by
  unfold keep tagged
  induction s with
  | nil => simp
  | cons c s ih =>
    cases h : ts.contains t
    · rw [h] at ih; simp only [List.map_cons, List.filter_cons, h]; simpa using ih
    · rw [h] at ih; simp only [List.map_cons, List.filter_cons, h]; simpa using ih

theorem keep_flatMap {α : Type} (ts : List Tag) (l : List α) (f : α → List (Char × Tag)) : keep ts (l.flatMap f) = l.flatMap fun a => keep ts (f a) := by
  induction l with
  | nil => rfl
  | cons a l ih => rw [List.flatMap_cons, keep_append, ih, List.flatMap_cons]

/-- What position `p` contributes. -/
def mark (old : Str) (cs es : List (Edit Char)) (p : Nat) : List (Char × Tag) :=
  tagged .counter (insertionsAt cs p) ++ tagged .xgo (insertionsAt es p ++ replacementAt es p) ++
    tagged (if covered es p then .removed else .source) (old[p]?).toList

def marks (old : Str) (cs es : List (Edit Char)) : List (Char × Tag) := (List.range (old.length + 1)).flatMap (mark old cs es)

theorem keep_mark (ts : List Tag) (old : Str) (cs es : List (Edit Char)) (p : Nat) : keep ts (mark old cs es p) =
    (if ts.contains .counter then insertionsAt cs p else []) ++ (if ts.contains .xgo then insertionsAt es p ++ replacementAt es p else []) ++
      (if ts.contains (if covered es p then .removed else .source) then (old[p]?).toList else []) := by
  unfold mark
  rw [keep_append, keep_append, keep_tagged, keep_tagged, keep_tagged]

theorem replacement_insertions (cs : List (Nat × Str)) (p : Nat) : replacementAt (cs.map insertion) p = [] := by
  unfold replacementAt
  have : (cs.map insertion).filter (fun e => e.start == p && p < e.stop) = [] := by
    rw [List.filter_eq_nil_iff]
    intro e he
    obtain ⟨c, -, rfl⟩ := List.mem_map.1 he
    intro h
    have h' := Bool.and_eq_true_iff.1 h
    have h1 : c.1 = p := beq_iff_eq.1 h'.1
    have h2 : p < c.1 := of_decide_eq_true h'.2
    omega
  rw [this]; rfl

theorem covered_insertions (cs : List (Nat × Str)) (p : Nat) : covered (cs.map insertion) p = false := by
  unfold covered
  rw [List.any_eq_false]
  intro e he
  obtain ⟨c, -, rfl⟩ := List.mem_map.1 he
  intro h
  have h' := Bool.and_eq_true_iff.1 h
  have h1 : c.1 ≤ p := of_decide_eq_true h'.1
  have h2 : p < c.1 := of_decide_eq_true h'.2
  omega

theorem insertionsAt_append (a b : List (Edit Char)) (p : Nat) : insertionsAt (a ++ b) p = insertionsAt a p ++ insertionsAt b p := by
  simp [insertionsAt]

theorem replacementAt_append (a b : List (Edit Char)) (p : Nat) : replacementAt (a ++ b) p = replacementAt a p ++ replacementAt b p := by
  simp [replacementAt]

theorem covered_append (a b : List (Edit Char)) (p : Nat) : covered (a ++ b) p = (covered a p || covered b p) := by
  simp [covered]

theorem marks_original (old : Str) (cs es : List (Edit Char)) : keep [.source, .removed] (marks old cs es) = old := by
  unfold marks
  rw [keep_flatMap]
  have : ∀ p, keep [.source, .removed] (mark old cs es p) = (old[p]?).toList := by
    intro p
    rw [keep_mark]
    cases covered es p <;> simp
  simp only [this]
  have h := range'_keep old 0 old.length (Nat.le_refl _)
  rw [List.range_eq_range', ← List.range'_append_1 (s := 0) (m := old.length) (n := 1), List.flatMap_append]
  simp at h ⊢
  exact h

theorem marks_xgo (old : Str) (cs es : List (Edit Char)) : keep [.source, .xgo] (marks old cs es) = edited old es := by
  unfold marks edited
  rw [keep_flatMap]
  refine flatMap_congr' fun p _ => ?_
  rw [keep_mark]
  unfold at_
  cases covered es p <;> simp

theorem marks_cover (old : Str) (cs : List (Nat × Str)) (es : List (Edit Char)) :
    keep [.source, .removed, .counter] (marks old (cs.map insertion) es) = edited old (cs.map insertion) := by
  unfold marks edited
  rw [keep_flatMap]
  refine flatMap_congr' fun p _ => ?_
  rw [keep_mark]
  unfold at_
  rw [replacement_insertions, covered_insertions]
  cases covered es p <;> simp

theorem marks_both (old : Str) (cs : List (Nat × Str)) (es : List (Edit Char)) :
    keep [.source, .xgo, .counter] (marks old (cs.map insertion) es) = edited old (cs.map insertion ++ es) := by
  unfold marks edited
  rw [keep_flatMap]
  refine flatMap_congr' fun p _ => ?_
  rw [keep_mark]
  unfold at_
  rw [insertionsAt_append, replacementAt_append, covered_append, replacement_insertions, covered_insertions]
  cases covered es p <;> simp

/-! ### The theorems -/

/-- **C72.** A file that xgo has edited, covered by the cover tool: the tool places its counters by the original file, under
    its own name, and the program that is compiled consists of the source, xgo's edits and the counters. Without the counters
    it is the program that is compiled without `-cover`; without xgo's edits it is what the tool makes of the original file. -/
theorem C72_covered {isPrint : Char → Bool} (hp : isPrint '\n' = false) {args : List Str} (hargs : ∃ a ∈ args, "-cover".toList <+: a)
    {file original : Str} (hf : file ≠ []) (ho : original ≠ []) {b : Buffer Char} (hb : Reachable original b) (hq : b.q ≠ [])
    (hc : Compatible b.q) (counters : Str → Str → List (Nat × Str)) (name : Str)
    (hin : ∀ c ∈ counters file original, c.1 ≤ original.length ∧ ∀ e ∈ b.q, ¬ (e.start < c.1 ∧ c.1 < e.stop)) :
    ∃ content t, instrumented isPrint args file original b = some content ∧
      cover counters name content = some (keep [.source, .xgo, .counter] t) ∧
      keep [.source, .removed] t = original ∧
      instrumented isPrint [] file original b = some (keep [.source, .xgo] t) ∧
      plainCover counters file original = some (keep [.source, .removed, .counter] t) := by
  have hbytes := (C27_bytes hb).1 hc
  have hb' : Reachable original b.bytes.2 := .bytes hb
  have hvalid := (reachable_valid hb').2
  have hperm : b.bytes.2.q.Perm b.q := stableSort_perm b.q
  have hq' : b.bytes.2.q ≠ [] := fun h => hq (List.perm_nil.1 (by rw [← h]; exact hperm.symm))
  have hmay : mayHaveCover args = true := by
    obtain ⟨a, ha, hpre⟩ := hargs
    unfold mayHaveCover
    rw [List.any_eq_true]
    exact ⟨a, ha, List.isPrefixOf_iff_prefix.2 hpre⟩
  have hins : ∀ args, instrumented isPrint args file original b =
      some (if mayHaveCover args then addEditsNotes isPrint b.bytes.2.q file original (edited original b.q) else edited original b.q) := by
    intro args
    unfold instrumented
    cases hbb : b.bytes with
    | mk o b2 =>
      rw [hbb] at hbytes
      simp only at hbytes
      rw [hbytes]
  refine ⟨_, marks original ((counters file original).map insertion) b.q, by rw [hins args, if_pos hmay], ?_, marks_original _ _ _, ?_, ?_⟩
  · unfold cover
    have hpa : parseApply name (addEditsNotes isPrint b.bytes.2.q file original (edited original b.q)) = (file, original, b.bytes.2.q) := by
      unfold parseApply
      rw [parse_notes hp _ hq' hf ho]
    simp only [hpa]
    obtain ⟨b1, h1, h2, h3⟩ := addCounters_ok (counters file original) (Buffer.mk' original) .new fun c hc => (hin c hc).1
    obtain ⟨b2, h4, h5, h6⟩ := addEdits_ok b.bytes.2.q b1 h2 hvalid
    rw [h1]
    simp only [h4]
    have hq2 : b2.q = (counters file original).map insertion ++ b.bytes.2.q := by rw [h6, h3]; simp [Buffer.mk']
    have hcomp : Compatible b2.q := by
      rw [hq2]
      refine List.pairwise_append.2 ⟨?_, (compatible_perm hperm).2 hc, ?_⟩
      · refine List.pairwise_map.2 (List.pairwise_of_forall fun a b => ?_)
        unfold Conflict insertion
        simp only
        omega
      · intro x hx y hy
        obtain ⟨c, hc', rfl⟩ := List.mem_map.1 hx
        have := (hin c hc').2 y (hperm.mem_iff.1 hy)
        unfold Conflict insertion
        simp only
        omega
    rw [(C27_bytes h5).1 hcomp, hq2, marks_both]
    refine congrArg some ?_
    refine edited_congr original _ _ (List.Perm.append_left _ hperm) (by rw [← hq2]; exact hcomp) fun p => ?_
    rw [List.filter_append, List.filter_append]
    exact congrArg (_ ++ ·) (stableSort_filter b.q p p)
  · have hm : mayHaveCover [] = false := rfl
    rw [hins [], marks_xgo, hm]
    simp only [Bool.false_eq_true, if_false]
  · rw [plainCover_eq fun c hc => (hin c hc).1, marks_cover]

/-- **C72.** A file without notes is covered as by the tool of the Go distribution. -/
theorem C72_plain (counters : Str → Str → List (Nat × Str)) (name content : Str) (h : ¬ "\n// __xgo_".toList <:+: content) :
    cover counters name content = plainCover counters name content := by
  have hn : parseNotes content = none := no_notes fun line hl hpre => h (by
    have e : "\n// __xgo_".toList = '\n' :: "// __xgo_".toList := by decide
    rw [e]
    obtain ⟨t, ht⟩ := hpre
    exact List.IsInfix.trans ⟨[], t, by rw [← ht]; simp⟩ (findLines_mem hl))
  unfold cover parseApply plainCover
  rw [hn]
  simp only
  cases addCounters (counters name content) (Buffer.mk' content) <;> rfl

/-! ### A file -/

/-- Two functions are trapped, `&V` is rewritten; the file has characters that must be escaped. -/
def exSource : Str := "package p // \"é\"\nvar V = `\\`\nfunc F() {\n\tuse(& V)\n}\n".toList

def exBuffer : Buffer Char := ⟨exSource, [⟨39, 39, "defer trap(\"<F>\\n\")();".toList⟩, ⟨45, 47, []⟩, ⟨48, 48, "_xgo_get_addr()".toList⟩]⟩

theorem exReachable : Reachable exSource exBuffer :=
  .insert (b := ⟨exSource, [⟨39, 39, "defer trap(\"<F>\\n\")();".toList⟩, ⟨45, 47, []⟩]⟩) 48 "_xgo_get_addr()".toList
    (.delete (b := ⟨exSource, [⟨39, 39, "defer trap(\"<F>\\n\")();".toList⟩]⟩) 45 47
      (.insert (b := Buffer.mk' exSource) 39 "defer trap(\"<F>\\n\")();".toList .new (by rfl)) (by rfl)) (by rfl)

/-- The counter of `F`, where xgo's edit is as well. -/
def exCounters (_ _ : Str) : List (Nat × Str) := [(39, "C[0]++;".toList)]

/-- ASCII is printable, other characters are not. -/
def exPrint (c : Char) : Bool := 0x20 ≤ c.toNat && c.toNat < 0x7f

example : ∃ content t, instrumented exPrint ["-coverprofile=c.out".toList] "/src/p.go".toList exSource exBuffer = some content ∧
    cover exCounters "/tmp/overlay/p.go".toList content = some (keep [.source, .xgo, .counter] t) ∧
    keep [.source, .removed] t = exSource ∧
    instrumented exPrint [] "/src/p.go".toList exSource exBuffer = some (keep [.source, .xgo] t) ∧
    plainCover exCounters "/src/p.go".toList exSource = some (keep [.source, .removed, .counter] t) :=
  C72_covered (by decide) ⟨_, List.mem_singleton.2 rfl, by decide⟩ (by decide) (by decide +kernel) exReachable (by decide)
    (by unfold Compatible Conflict exBuffer; decide +kernel) exCounters _ (by decide +kernel)

/-- The program that is compiled. -/
example : (instrumented exPrint ["-cover".toList] "/src/p.go".toList exSource exBuffer).bind (cover exCounters "/tmp/overlay/p.go".toList) =
    some "package p // \"é\"\nvar V = `\\`\nfunc F() {C[0]++;defer trap(\"<F>\\n\")();\n\tuse(V_xgo_get_addr())\n}\n".toList := by
  decide +kernel

example : cover exCounters "p.go".toList exSource = plainCover exCounters "p.go".toList exSource :=
  C72_plain _ _ _ (by rw [← cut_none]; decide +kernel)

/-- Go accepts its flags with two dashes. Then xgo leaves no notes, and the cover tool takes the text that xgo has edited, under
    the name of the temporary file, for the source. -/
theorem C72_two_dashes_counterexample : mayHaveCover ["test".toList, "--coverprofile=c.out".toList, "./...".toList] = false ∧
    ∃ content, instrumented exPrint ["--coverprofile=c.out".toList] "/src/p.go".toList exSource exBuffer = some content ∧
      content ≠ exSource ∧ parseApply "/tmp/overlay/p.go".toList content = ("/tmp/overlay/p.go".toList, content, []) := by
  refine ⟨by decide, edited exSource exBuffer.q, ?_, ?_, ?_⟩ <;> decide +kernel

end Verif.Instrument.CoverNotes
