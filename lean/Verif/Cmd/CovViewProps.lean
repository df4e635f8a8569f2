/-
C92: blocks and lines.
-/
import Verif.Cmd.CovViewSpec
import Verif.Instrument.FuncTrapNames

namespace Verif.Cmd.CovView
open Spec
open Instrument.FuncTrap (dec dec_inj)

/-! ### Blocks -/

theorem before_iff {a b : Block} : a.before b = true ↔ Before a b := by
  unfold Block.before Before
  split
  · simp; omega
  · split
    · simp; omega
    · split <;> simp <;> omega

theorem before_trans {a b c : Block} (h : Before a b) (h' : Before b c) : Before a c := by
  unfold Before at *; omega

theorem before_total (a b : Block) : a = b ∨ Before a b ∨ Before b a := by
  by_cases h : a = b
  · exact .inl h
  · right
    rcases a with ⟨a1, a2, a3, a4⟩
    rcases b with ⟨b1, b2, b3, b4⟩
    simp only [Block.mk.injEq] at h
    unfold Before; simp only; omega

theorem before_irrefl (a : Block) : ¬ Before a a := by unfold Before; omega

theorem has_iff {b : Block} {l : Nat} : b.has l = true ↔ On b l := by
  simp [Block.has, On]

theorem first_unique {P : Block → Prop} {l : Nat} {b b' : Block} (h : First P l b) (h' : First P l b') : b = b' := by
  rcases h.2.2 b' h'.1 h'.2.1 with h1 | h1
  · exact h1.symm
  · rcases h'.2.2 b h.1 h.2.1 with h2 | h2
    · exact h2
    · exact absurd (before_trans h1 h2) (before_irrefl b)

/-- What the loop has when it began with `acc`. -/
theorem fold_first (l : Nat) : ∀ (bs : List Block) (acc : Option Block), (∀ b, acc = some b → On b l) →
    match bs.foldl (lineStep l) acc with
    | none => acc = none ∧ ∀ b ∈ bs, ¬ On b l
    | some b => First (fun x => x ∈ bs ∨ acc = some x) l b := by
  intro bs
  induction bs with
  | nil =>
    intro acc h
    cases acc with
    | none => exact ⟨rfl, by simp⟩
    | some b => exact ⟨.inr rfl, h b rfl, fun b' hb' _ => by
        rcases hb' with h | h
        · cases h
        · exact .inl (Option.some.inj h).symm⟩
  | cons x bs ih =>
    intro acc h
    rw [List.foldl_cons]
    by_cases hx : x.has l = true
    · have hon := has_iff.1 hx
      cases acc with
      | none =>
        have e : lineStep l none x = some x := by simp [lineStep, hx]
        rw [e]
        have := ih (some x) (by intro b hb; cases hb; exact hon)
        revert this
        cases hr : bs.foldl (lineStep l) (some x) with
        | none => intro h; simp at h
        | some b =>
          rintro ⟨h1, h2, h3⟩
          refine ⟨?_, h2, fun b' hb' hon' => ?_⟩
          · rcases h1 with h1 | h1
            · exact .inl (List.mem_cons_of_mem _ h1)
            · cases h1; exact .inl List.mem_cons_self
          · rcases hb' with hb' | hb'
            · rcases List.mem_cons.1 hb' with rfl | hb'
              · exact h3 _ (.inr rfl) hon'
              · exact h3 _ (.inl hb') hon'
            · cases hb'
      | some p =>
        have hp := h p rfl
        by_cases hb : p.before x = true
        · have e : lineStep l (some p) x = some p := by simp [lineStep, hx, hb]
          rw [e]
          have := ih (some p) h
          revert this
          cases hr : bs.foldl (lineStep l) (some p) with
          | none => intro h; simp at h
          | some b =>
            rintro ⟨h1, h2, h3⟩
            refine ⟨?_, h2, fun b' hb' hon' => ?_⟩
            · rcases h1 with h1 | h1
              · exact .inl (List.mem_cons_of_mem _ h1)
              · exact .inr h1
            · rcases hb' with hb' | hb'
              · rcases List.mem_cons.1 hb' with rfl | hb'
                · right
                  rcases h3 p (.inr rfl) hp with h4 | h4
                  · rw [← h4]; exact before_iff.1 hb
                  · exact before_trans h4 (before_iff.1 hb)
                · exact h3 _ (.inl hb') hon'
              · exact h3 _ (.inr hb') hon'
        · have e : lineStep l (some p) x = some x := by simp [lineStep, hx, hb]
          rw [e]
          have hle : p = x ∨ Before x p := by
            rcases before_total p x with h1 | h1 | h1
            · exact .inl h1
            · exact absurd (before_iff.2 h1) hb
            · exact .inr h1
          have := ih (some x) (by intro b hb; cases hb; exact hon)
          revert this
          cases hr : bs.foldl (lineStep l) (some x) with
          | none => intro h; simp at h
          | some b =>
            rintro ⟨h1, h2, h3⟩
            refine ⟨?_, h2, fun b' hb' hon' => ?_⟩
            · rcases h1 with h1 | h1
              · exact .inl (List.mem_cons_of_mem _ h1)
              · cases h1; exact .inl List.mem_cons_self
            · rcases hb' with hb' | hb'
              · rcases List.mem_cons.1 hb' with rfl | hb'
                · exact h3 _ (.inr rfl) hon'
                · exact h3 _ (.inl hb') hon'
              · cases hb'
                rcases hle with rfl | hle
                · exact h3 _ (.inr rfl) hon
                · right
                  rcases h3 x (.inr rfl) hon with h4 | h4
                  · rw [← h4]; exact hle
                  · exact before_trans h4 hle
    · have e : lineStep l acc x = acc := by simp [lineStep, hx]
      rw [e]
      have := ih acc h
      revert this
      cases hr : bs.foldl (lineStep l) acc with
      | none =>
        rintro ⟨h1, h2⟩
        exact ⟨h1, fun b hb => by
          rcases List.mem_cons.1 hb with rfl | hb
          · exact fun h => hx (has_iff.2 h)
          · exact h2 b hb⟩
      | some b =>
        rintro ⟨h1, h2, h3⟩
        refine ⟨?_, h2, fun b' hb' hon' => ?_⟩
        · rcases h1 with h1 | h1
          · exact .inl (List.mem_cons_of_mem _ h1)
          · exact .inr h1
        · rcases hb' with hb' | hb'
          · rcases List.mem_cons.1 hb' with rfl | hb'
            · exact absurd (has_iff.2 hon') hx
            · exact h3 _ (.inl hb') hon'
          · exact h3 _ (.inr hb') hon'

theorem lineBlock_some {bs : List Block} {l : Nat} {b : Block} : lineBlock bs l = some b ↔ First (· ∈ bs) l b := by
  have := fold_first l bs none (by intro b hb; cases hb)
  unfold lineBlock
  revert this
  cases bs.foldl (lineStep l) none with
  | none =>
    rintro ⟨_, h⟩
    constructor
    · intro hh; cases hh
    · rintro ⟨h1, h2, _⟩; exact absurd h2 (h b h1)
  | some c =>
    intro h
    have hc : First (· ∈ bs) l c := ⟨h.1.resolve_right (by simp), h.2.1, fun b' hb' => h.2.2 b' (.inl hb')⟩
    constructor
    · rintro ⟨⟩; exact hc
    · intro h'; rw [first_unique hc h']

theorem lineBlock_none {bs : List Block} {l : Nat} : lineBlock bs l = none ↔ ∀ b ∈ bs, ¬ On b l := by
  have := fold_first l bs none (by intro b hb; cases hb)
  unfold lineBlock
  revert this
  cases bs.foldl (lineStep l) none with
  | none => rintro ⟨_, h⟩; exact ⟨fun _ => h, fun _ => rfl⟩
  | some c =>
    intro h
    constructor
    · intro h; cases h
    · intro h'; exact absurd h.2.1 (h' c (h.1.resolve_right (by simp)))

/-! ### The profile -/

theorem dec_digit {n : Nat} {c : Char} (h : c ∈ dec n) : c.isDigit = true := Support.digit_toDigits h

theorem dec_ne_nil (n : Nat) : dec n ≠ [] := Nat.toDigits_ne_nil

theorem takeWhile_dec (n : Nat) (t : Str) (ht : ∀ c, t.head? = some c → c.isDigit = false) :
    (dec n ++ t).takeWhile Char.isDigit = dec n := by
  rw [List.takeWhile_append_of_pos (fun c hc => dec_digit hc)]
  cases t with
  | nil => simp
  | cons c t => simp [List.takeWhile_cons, ht c rfl]

theorem number_dec' (n : Nat) (t : Str) (hn : n < 2 ^ 63) (ht : ∀ c, t.head? = some c → c.isDigit = false) :
    number (dec n ++ t) = some (n, t) := by
  unfold number
  rw [takeWhile_dec n t ht]
  have e : Nat.ofDigitChars 10 (dec n) 0 = n := by simp [dec]
  simp only [dec_ne_nil, if_false, e, hn, if_true, List.drop_left]

/-- The line of an entry, as `go test` writes it. -/
def Entry.text (e : Entry) : Str :=
  e.file ++ ':' :: (dec e.block.sl ++ '.' :: (dec e.block.sc ++ ',' :: (dec e.block.el ++ '.' :: (dec e.block.ec ++
    ' ' :: (dec e.stmts ++ ' ' :: (dec e.count ++ []))))))

theorem takeWhile_until (c : Char) (a t : Str) (h : c ∉ a) : (a ++ c :: t).takeWhile (· != c) = a := by
  rw [List.takeWhile_append_of_pos]
  · simp
  · intro x hx
    simp only [bne_iff_ne]
    rintro rfl
    exact h hx

/-- **C92** (`C92_parse`): each line that `go test` writes is read back as what it says. -/
theorem C92_parse (e : Entry) (hf : e.file ≠ []) (hc : ':' ∉ e.file)
    (h : ∀ n ∈ [e.block.sl, e.block.sc, e.block.el, e.block.ec, e.stmts, e.count], n < 2 ^ 63) :
    parseBlock e.text = some e := by
  have h1 := h e.block.sl (by simp)
  have h2 := h e.block.sc (by simp)
  have h3 := h e.block.el (by simp)
  have h4 := h e.block.ec (by simp)
  have h5 := h e.stmts (by simp)
  have h6 := h e.count (by simp)
  have dot : '.'.isDigit = false := by decide
  have com : ','.isDigit = false := by decide
  have spc : ' '.isDigit = false := by decide
  unfold parseBlock Entry.text
  simp only [takeWhile_until _ _ _ hc, hf, if_false, List.drop_left]
  simp only [expect, if_true, Option.bind_eq_bind, Option.bind_some]
  rw [number_dec' _ _ h1 (by intro c hc; cases hc; exact dot)]
  simp only [expect, if_true, Option.bind_some]
  rw [number_dec' _ _ h2 (by intro c hc; cases hc; exact com)]
  simp only [expect, if_true, Option.bind_some]
  rw [number_dec' _ _ h3 (by intro c hc; cases hc; exact dot)]
  simp only [expect, if_true, Option.bind_some]
  rw [number_dec' _ _ h4 (by intro c hc; cases hc; exact spc)]
  simp only [expect, if_true, Option.bind_some]
  rw [number_dec' _ _ h5 (by intro c hc; cases hc; exact spc)]
  simp only [expect, if_true, Option.bind_some]
  rw [number_dec' _ _ h6 (by intro c hc; cases hc)]
  simp only [Option.bind_some]

/-- What of the line is before the count: by it lines of several files are merged (C31). -/
def Entry.place (e : Entry) : Str :=
  e.file ++ ':' :: (dec e.block.sl ++ '.' :: (dec e.block.sc ++ ',' :: (dec e.block.el ++ '.' :: (dec e.block.ec ++ ' ' :: dec e.stmts))))

theorem text_place (e : Entry) : e.text = e.place ++ ' ' :: dec e.count := by
  simp [Entry.text, Entry.place]

/-- **C92** (`C92_convert`): what merging gives is read as what it says, all of it, in order. -/
theorem C92_convert (es : List Entry) (h : ∀ e ∈ es, e.file ≠ [] ∧ ':' ∉ e.file ∧
      ∀ n ∈ [e.block.sl, e.block.sc, e.block.el, e.block.ec, e.stmts, e.count], n < 2 ^ 63) :
    convert (es.map fun e => ⟨e.place, Int64.ofNat e.count⟩) = some es := by
  unfold convert
  induction es with
  | nil => rfl
  | cons e es ih =>
    obtain ⟨h1, h2, h3⟩ := h e List.mem_cons_self
    have hc : (Int64.ofNat e.count).toInt = e.count := by
      rw [Int64.toInt_ofNat_of_lt (h3 e.count (by simp))]
    have ht : e.place ++ ' ' :: Support.GoVersion.itoa (Int64.ofNat e.count).toInt = e.text := by
      rw [text_place, hc]; rfl
    rw [List.map_cons, List.mapM_cons, ht, C92_parse e h1 h2 h3, ih fun x hx => h x (List.mem_cons_of_mem _ hx)]
    rfl

/-- **C92** (`C92_overflow`): a count that has overflowed while merging is an error, and nothing is shown. -/
theorem C92_overflow (e : Entry) (hf : e.file ≠ []) (hc : ':' ∉ e.file)
    (h : ∀ n ∈ [e.block.sl, e.block.sc, e.block.el, e.block.ec, e.stmts], n < 2 ^ 63) (n : Int64) (hn : n < 0)
    (pre post : List Support.Coverage.CovLine) : convert (pre ++ ⟨e.place, n⟩ :: post) = none := by
  have h1 := h e.block.sl (by simp)
  have h2 := h e.block.sc (by simp)
  have h3 := h e.block.el (by simp)
  have h4 := h e.block.ec (by simp)
  have h5 := h e.stmts (by simp)
  have dot : '.'.isDigit = false := by decide
  have com : ','.isDigit = false := by decide
  have spc : ' '.isDigit = false := by decide
  have hi : n.toInt < 0 := by have := Int64.lt_iff_toInt_lt.1 hn; simpa using this
  have one : parseBlock (e.place ++ ' ' :: Support.GoVersion.itoa n.toInt) = none := by
    rw [Support.GoVersion.itoa, if_pos hi]
    have : e.place ++ ' ' :: '-' :: Nat.toDigits 10 n.toInt.natAbs = e.file ++ ':' :: (dec e.block.sl ++ '.' :: (dec e.block.sc ++
      ',' :: (dec e.block.el ++ '.' :: (dec e.block.ec ++ ' ' :: (dec e.stmts ++ ' ' :: '-' :: Nat.toDigits 10 n.toInt.natAbs))))) := by
      simp [Entry.place]
    rw [this]
    unfold parseBlock
    simp only [takeWhile_until _ _ _ hc, hf, if_false, List.drop_left]
    simp only [expect, if_true, Option.bind_eq_bind, Option.bind_some]
    rw [number_dec' _ _ h1 (by intro c hc; cases hc; exact dot)]
    simp only [expect, if_true, Option.bind_some]
    rw [number_dec' _ _ h2 (by intro c hc; cases hc; exact com)]
    simp only [expect, if_true, Option.bind_some]
    rw [number_dec' _ _ h3 (by intro c hc; cases hc; exact dot)]
    simp only [expect, if_true, Option.bind_some]
    rw [number_dec' _ _ h4 (by intro c hc; cases hc; exact spc)]
    simp only [expect, if_true, Option.bind_some]
    rw [number_dec' _ _ h5 (by intro c hc; cases hc; exact spc)]
    simp only [expect, if_true, Option.bind_some]
    have : '-'.isDigit = false := by decide
    simp [number, this]
  unfold convert
  induction pre with
  | nil => rw [List.nil_append, List.mapM_cons, one]; rfl
  | cons x pre ih =>
    rw [List.cons_append, List.mapM_cons, ih]
    cases parseBlock (x.pfx ++ ' ' :: Support.GoVersion.itoa x.count.toInt) <;> rfl

example : convert [⟨"m/a.go:3.13,5.2 1".toList, 7⟩] = some [⟨"m/a.go".toList, ⟨3, 13, 5, 2⟩, 1, 7⟩] := by decide +kernel

example : parseBlock "m/a.go:3.13,5.2 1 7".toList = some ⟨"m/a.go".toList, ⟨3, 13, 5, 2⟩, 1, 7⟩ := by decide +kernel
example : parseBlock "C:/m/a.go:3.13,5.2 1 7".toList = none := by decide +kernel

theorem cut_number {m n : Nat} {s t : Str} (hs : ∀ c, s.head? = some c → c.isDigit = false)
    (ht : ∀ c, t.head? = some c → c.isDigit = false) (h : dec m ++ s = dec n ++ t) : m = n ∧ s = t := by
  have h1 := congrArg (List.takeWhile Char.isDigit) h
  rw [takeWhile_dec m s hs, takeWhile_dec n t ht] at h1
  refine ⟨dec_inj h1, ?_⟩
  rw [h1] at h
  exact List.append_cancel_left h

/-- **C92** (`C92_ids`): different blocks of a file have different keys in the maps. -/
theorem C92_ids {a b : Block} (h : a.id = b.id) : a = b := by
  have col : ':'.isDigit = false := by decide
  have min : '-'.isDigit = false := by decide
  unfold Block.id at h
  simp only [List.append_assoc, List.cons_append] at h
  have h1 := cut_number (by intro c hc; cases hc; exact col) (by intro c hc; cases hc; exact col) h
  have h2 := cut_number (by intro c hc; cases hc; exact min) (by intro c hc; cases hc; exact min) (List.cons.inj h1.2).2
  have h3 := cut_number (by intro c hc; cases hc; exact col) (by intro c hc; cases hc; exact col) (List.cons.inj h2.2).2
  have h4 := dec_inj (List.cons.inj h3.2).2
  cases a; cases b
  simp_all

/-! ### Files of the module -/

theorem rel_of (mod r : Str) (hr : r ≠ []) : rel mod (mod ++ '/' :: r) = some r := by
  unfold rel
  have : mod.isPrefixOf (mod ++ '/' :: r) = true := List.isPrefixOf_iff_prefix.2 ⟨_, rfl⟩
  simp [this, hr]

theorem rel_prefix {mod file r : Str} (h : rel mod file = some r) : mod <+: file := by
  unfold rel at h
  split at h
  · exact List.isPrefixOf_iff_prefix.1 ‹_›
  · cases h

theorem rel_iff {i : Input} (hi : Clean i) {e : Entry} (he : e ∈ i.profile) {f : Str} :
    rel i.mod e.file = some f ↔ f ≠ [] ∧ e.file = path i f := by
  constructor
  · intro h
    obtain ⟨r, hr, e'⟩ := hi.below e he (rel_prefix h)
    rw [e', rel_of _ _ hr] at h
    cases h
    exact ⟨hr, e'⟩
  · rintro ⟨hf, h⟩
    rw [h, path, rel_of _ _ hf]

theorem mem_entries {i : Input} (hi : Clean i) {f : Str} (hf : f ≠ []) {e : Entry} :
    e ∈ i.entries f ↔ e ∈ i.profile ∧ e.file = path i f := by
  unfold Input.entries
  rw [List.mem_filter]
  constructor
  · rintro ⟨h1, h2⟩; exact ⟨h1, ((rel_iff hi h1).1 (of_decide_eq_true h2)).2⟩
  · rintro ⟨h1, h2⟩; exact ⟨h1, decide_eq_true ((rel_iff hi h1).2 ⟨hf, h2⟩)⟩

theorem mem_blocks {i : Input} (hi : Clean i) {f : Str} (hf : f ≠ []) {b : Block} : b ∈ i.blocks f ↔ Code i f b := by
  unfold Input.blocks Code
  rw [List.mem_append]
  apply or_congr
  · by_cases h : f ∈ i.listed <;> simp [h]
  · rw [List.mem_map]
    constructor
    · rintro ⟨e, he, rfl⟩
      have := (mem_entries hi hf).1 he
      exact ⟨e, this.1, this.2, rfl⟩
    · rintro ⟨e, he, h, rfl⟩
      exact ⟨e, (mem_entries hi hf).2 ⟨he, h⟩, rfl⟩

theorem executed_iff {i : Input} (hi : Clean i) {f : Str} (hf : f ≠ []) {b : Block} :
    executed (i.entries f) b = true ↔ Ran i f b := by
  unfold executed Ran
  constructor
  · intro h
    split at h
    · cases h
    · rename_i e he
      have hm := List.mem_of_find?_eq_some he
      have hb : e.block = b := by simpa using List.find?_some he
      have := (mem_entries hi hf).1 (List.mem_reverse.1 hm)
      exact ⟨e, this.1, this.2, hb, of_decide_eq_true h⟩
  · rintro ⟨e, he, h1, h2, h3⟩
    split
    · rename_i hn
      rw [List.find?_eq_none] at hn
      exact absurd (decide_eq_true h2) (hn e (List.mem_reverse.2 ((mem_entries hi hf).2 ⟨he, h1⟩)))
    · rename_i e' he'
      have hm := List.mem_of_find?_eq_some he'
      have hb : e'.block = b := by simpa using List.find?_some he'
      have := (mem_entries hi hf).1 (List.mem_reverse.1 hm)
      have := hi.once e' this.1 e he (by rw [this.2, h1]) (by rw [hb, h2])
      rw [this]
      exact decide_eq_true h3

theorem first_congr {P Q : Block → Prop} (h : ∀ b, P b ↔ Q b) {l : Nat} {b : Block} : First P l b ↔ First Q l b := by
  have : P = Q := funext fun b => propext (h b)
  rw [this]

theorem coverable_iff {i : Input} (hi : Clean i) {f : Str} (hf : f ≠ []) {l : Nat} :
    i.coverable f l = true ↔ Coverable i f l := by
  unfold Input.coverable Coverable NoCode
  rw [Bool.and_eq_true]
  apply and_congr
  · by_cases h : f ∈ i.listed <;> simp [h]
  · rw [Option.isSome_iff_ne_none, ne_eq, lineBlock_none]
    constructor
    · intro h
      simp only [Classical.not_forall, Classical.not_not] at h
      obtain ⟨b, hb, ho⟩ := h
      exact ⟨b, (mem_blocks hi hf).1 hb, ho⟩
    · rintro ⟨b, hb, ho⟩ h
      exact h b ((mem_blocks hi hf).2 hb) ho

theorem covered_iff {i : Input} (hi : Clean i) {f : Str} (hf : f ≠ []) {l : Nat} :
    i.covered f l = true ↔ Covered i f l := by
  unfold Input.covered Covered
  constructor
  · intro h
    split at h
    · cases h
    · rename_i b hb
      exact ⟨b, (first_congr fun b => mem_blocks hi hf).1 (lineBlock_some.1 hb), (executed_iff hi hf).1 h⟩
  · rintro ⟨b, hb, hr⟩
    rw [lineBlock_some.2 ((first_congr fun b => mem_blocks hi hf).2 hb)]
    exact (executed_iff hi hf).2 hr

end Verif.Cmd.CovView
