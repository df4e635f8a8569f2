/-
C31 (merging coverage profiles) and C32 (parse / print round trip).
-/
import Verif.Support.CoverageSpec
import Verif.Support.GoVersionProps

namespace Verif.Support.Coverage
open Spec
open GoVersion (parseInt64 splitOn itoa)

/-! ### The specification, at the end of a list -/

theorem mem_distinct {p : Str} : ∀ {l : List Str}, p ∈ distinct l ↔ p ∈ l
  | [] => by simp [distinct]
  | q :: l => by
    have ih := @mem_distinct p l
    by_cases h : p = q <;> simp [distinct, ih, h]

theorem nodup_distinct : ∀ l : List Str, (distinct l).Nodup
  | [] => by simp [distinct]
  | q :: l => by
    have ih := nodup_distinct l
    simp only [distinct, List.nodup_cons]
    exact ⟨by simp, ih.filter _⟩

theorem distinct_snoc (p : Str) : ∀ l : List Str,
    distinct (l ++ [p]) = if p ∈ l then distinct l else distinct l ++ [p]
  | [] => by simp [distinct]
  | q :: l => by
    have ih := distinct_snoc p l
    simp only [List.cons_append, distinct, ih]
    by_cases h : p ∈ l
    · simp [h]
    · by_cases hq : p = q
      · subst hq; simp [h]
      · simp [h, hq]

theorem total_append (a b : List CovLine) (p : Str) : total (a ++ b) p = total a p + total b p := by
  induction a with
  | nil => simp [total]
  | cons l a ih =>
    simp only [List.cons_append, total]
    split <;> simp [ih, Int64.add_assoc]

theorem total_perm {a b : List CovLine} (h : a.Perm b) (p : Str) : total a p = total b p := by
  induction h with
  | nil => rfl
  | cons x _ ih => simp only [total, ih]
  | swap x y l =>
    simp only [total]
    split <;> split <;> simp [← Int64.add_assoc, Int64.add_comm]
  | trans _ _ ih₁ ih₂ => exact ih₁.trans ih₂

theorem merged_pfx (ls : List CovLine) : (merged ls).map (·.pfx) = distinct (ls.map (·.pfx)) := by
  simp [merged, Function.comp_def]

theorem total_not_mem {ls : List CovLine} {p : Str} (h : p ∉ ls.map (·.pfx)) : total ls p = 0 := by
  induction ls with
  | nil => rfl
  | cons l ls ih =>
    simp only [List.map_cons, List.mem_cons, not_or] at h
    simp [total, ih h.2, Ne.symm h.1]

/-- Adding a line to the merged profile. -/
theorem merged_snoc (ls : List CovLine) (l : CovLine) :
    merged (ls ++ [l]) = if l.pfx ∈ ls.map (·.pfx)
      then (merged ls).map (fun x => if x.pfx = l.pfx then ⟨x.pfx, x.count + l.count⟩ else x)
      else merged ls ++ [l] := by
  unfold merged
  rw [List.map_append, List.map_cons, List.map_nil, distinct_snoc]
  split
  case isTrue h =>
    rw [List.map_map]
    apply List.map_congr_left
    intro p _
    simp only [total_append, total, Function.comp]
    by_cases hp : l.pfx = p
    · subst hp; simp
    · simp [hp, Ne.symm hp]
  case isFalse h =>
    rw [List.map_append]
    congr 1
    · apply List.map_congr_left
      intro p hp
      have : l.pfx ≠ p := fun e => h (e ▸ mem_distinct.1 hp)
      simp [total_append, total, this]
    · simp [total_append, total, total_not_mem h]

/-! ### The loop -/

/-- What holds after the lines `done` have been read from the memory `h₀`. -/
structure Inv (h₀ : Heap) (done : List Nat) (s : St) : Prop where
  lines : s.dst.map s.heap = merged (done.map h₀)
  look : ∀ p q, s.byPfx.lookup p = some q → q ∈ s.dst ∧ (s.heap q).pfx = p
  found : ∀ q ∈ s.dst, s.byPfx.lookup (s.heap q).pfx = some q
  sub : ∀ q ∈ s.dst, q ∈ done
  rest : ∀ q, q ∉ done → s.heap q = h₀ q

theorem Inv.init (h₀ : Heap) : Inv h₀ [] ⟨h₀, [], []⟩ := by
  constructor <;> simp [merged, distinct]

theorem Inv.step {h₀ : Heap} {done : List Nat} {s : St} (h : Inv h₀ done s) {ptr : Nat} (hp : ptr ∉ done) :
    Inv h₀ (done ++ [ptr]) (step s ptr) := by
  have hv : s.heap ptr = h₀ ptr := h.rest ptr hp
  have hpf : s.dst.map (fun q => (s.heap q).pfx) = distinct ((done.map h₀).map (·.pfx)) := by
    rw [← merged_pfx, ← h.lines, List.map_map]; rfl
  have hmem : ∀ p, p ∈ (done.map h₀).map (·.pfx) ↔ ∃ q ∈ s.dst, (s.heap q).pfx = p := by
    intro p
    rw [← mem_distinct, ← hpf, List.mem_map]
  unfold Coverage.step
  cases hl : s.byPfx.lookup (s.heap ptr).pfx with
  | none =>
    have hnot : ¬ (h₀ ptr).pfx ∈ (done.map h₀).map (·.pfx) := by
      rw [hmem]
      rintro ⟨q, hq, e⟩
      have := h.found q hq
      rw [e, ← hv, hl] at this
      cases this
    constructor
    · simp only [List.map_append, List.map_cons, List.map_nil]
      rw [merged_snoc, if_neg hnot, h.lines, hv]
    · intro p q hq
      simp only [List.lookup_cons] at hq
      by_cases hpp : p = (s.heap ptr).pfx
      · simp [hpp] at hq
        subst hq
        exact ⟨by simp, hpp.symm⟩
      · have : (p == (s.heap ptr).pfx) = false := by simpa using hpp
        rw [this] at hq
        have := h.look p q hq
        exact ⟨by simp [this.1], this.2⟩
    · intro q hq
      simp only [List.mem_append, List.mem_singleton] at hq
      simp only [List.lookup_cons]
      rcases hq with hq | rfl
      · have hne : (s.heap q).pfx ≠ (s.heap ptr).pfx := by
          intro e
          exact hnot ((hmem _).2 ⟨q, hq, by rw [e, hv]⟩)
        have : ((s.heap q).pfx == (s.heap ptr).pfx) = false := by simpa using hne
        rw [this]
        exact h.found q hq
      · simp
    · intro q hq
      simp only [List.mem_append, List.mem_singleton] at hq ⊢
      exact hq.imp (h.sub q) id
    · intro q hq
      simp only [List.mem_append, not_or] at hq
      exact h.rest q hq.1
  | some prev =>
    obtain ⟨hd, he⟩ := h.look _ _ hl
    have hpfx : ∀ q, (if q = prev then ({ s.heap prev with count := (s.heap prev).count + (s.heap ptr).count } : CovLine)
        else s.heap q).pfx = (s.heap q).pfx := by
      intro q; by_cases e : q = prev <;> simp [e]
    have hin : (h₀ ptr).pfx ∈ (done.map h₀).map (·.pfx) := by
      rw [hmem]; exact ⟨prev, hd, by rw [he, hv]⟩
    constructor
    · simp only [List.map_append, List.map_cons, List.map_nil]
      rw [merged_snoc, if_pos hin, ← h.lines, List.map_map]
      apply List.map_congr_left
      intro q hq
      simp only [Function.comp]
      by_cases e : q = prev
      · subst e
        simp [he, hv]
      · rw [if_neg e, if_neg]
        intro e'
        have h1 := h.found q hq
        rw [e', ← hv, hl] at h1
        exact e (Option.some.inj h1).symm
    · intro p q hq
      have := h.look p q hq
      exact ⟨this.1, by simp only [hpfx]; exact this.2⟩
    · intro q hq
      simp only [hpfx]
      exact h.found q hq
    · intro q hq
      exact List.mem_append_left _ (h.sub q hq)
    · intro q hq
      simp only [List.mem_append, not_or] at hq
      have hne : q ≠ prev := fun e => hq.1 (e ▸ h.sub prev hd)
      simp only [if_neg hne]
      exact h.rest q hq.1

theorem Inv.fold {h₀ : Heap} : ∀ (l : List Nat) {done : List Nat} {s : St}, Inv h₀ done s → (done ++ l).Nodup →
    Inv h₀ (done ++ l) (l.foldl Coverage.step s)
  | [], done, s, h, _ => by simpa using h
  | p :: l, done, s, h, hn => by
    have hp : p ∉ done := by
      intro hm
      rw [List.nodup_append] at hn
      exact hn.2.2 p hm p (by simp) rfl
    have := Inv.fold l (h.step hp) (by simpa using hn)
    simpa using this

theorem foldl_flatten (cs : List (List Nat)) (s : St) :
    cs.foldl (fun s src => src.foldl Coverage.step s) s = cs.flatten.foldl Coverage.step s := by
  induction cs generalizing s with
  | nil => rfl
  | cons c cs ih => simp [ih]

theorem merge_eq (heap : Heap) (covs : List (List Nat)) :
    merge heap covs = let s := covs.flatten.foldl Coverage.step ⟨heap, [], []⟩; (s.heap, s.dst) := by
  match covs with
  | [] => rfl
  | [c] => simp [merge, compact]
  | c :: d :: cs => simp only [merge, foldl_flatten, List.flatten_cons, List.foldl_append]

/-- **C31.** Merging any number of profiles, of any length, whose lines are distinct objects: afterwards the lines
    of the result are the distinct blocks, in order of first occurrence, each with the sum of all its counts. -/
theorem C31_merge (heap : Heap) (covs : List (List Nat)) (h : covs.flatten.Nodup) :
    (merge heap covs).2.map (merge heap covs).1 = merged (covs.flatten.map heap) := by
  rw [merge_eq]
  have := (Inv.fold covs.flatten (Inv.init heap) (by simpa using h)).lines
  simpa using this

/-- **C31**, spelled out: no block occurs twice in the merged profile, and a line is in it exactly if its block
    occurs in a profile and its count is the total. -/
theorem C31_blocks (heap : Heap) (covs : List (List Nat)) (h : covs.flatten.Nodup) :
    (((merge heap covs).2.map (merge heap covs).1).map (·.pfx)).Nodup ∧
    ∀ l : CovLine, l ∈ (merge heap covs).2.map (merge heap covs).1 ↔
      (∃ c ∈ covs, ∃ q ∈ c, (heap q).pfx = l.pfx) ∧ l.count = total (covs.flatten.map heap) l.pfx := by
  rw [C31_merge heap covs h]
  refine ⟨by rw [merged_pfx]; exact nodup_distinct _, ?_⟩
  intro l
  unfold merged
  simp only [List.mem_map, mem_distinct, List.mem_flatten]
  constructor
  · rintro ⟨p, ⟨a, ⟨q, ⟨c, hc, hq⟩, rfl⟩, rfl⟩, rfl⟩
    exact ⟨⟨c, hc, q, hq, rfl⟩, rfl⟩
  · rintro ⟨⟨c, hc, q, hq, e⟩, ht⟩
    exact ⟨l.pfx, ⟨heap q, ⟨q, ⟨c, hc, hq⟩, rfl⟩, e⟩, by rw [← ht]⟩

/-- **C31.** The order of the profiles does not matter: the same blocks with the same counts. -/
theorem C31_order_irrelevant (heap : Heap) (covs covs' : List (List Nat)) (h : covs.flatten.Nodup)
    (hp : covs.Perm covs') (l : CovLine) :
    l ∈ (merge heap covs).2.map (merge heap covs).1 ↔ l ∈ (merge heap covs').2.map (merge heap covs').1 := by
  have hf : covs.flatten.Perm covs'.flatten := hp.flatten
  rw [(C31_blocks heap covs h).2, (C31_blocks heap covs' (hf.nodup_iff.1 h)).2, total_perm (hf.map heap)]
  simp only [hp.mem_iff]

/-- What a caller must know: the lines of the result are lines of the arguments, and their counts change. Merging
    the same two profiles again does not give the same counts. -/
theorem C31_arguments_change :
    ∃ (heap : Heap) (a b : List Nat), (a ++ b).Nodup ∧
      let m := merge heap [a, b]
      let m' := merge m.1 [a, b]
      a.map m.1 ≠ a.map heap ∧ m'.2.map m'.1 ≠ m.2.map m.1 := by
  refine ⟨fun _ => ⟨['x'], 1⟩, [0], [1], by decide, ?_⟩
  decide

/-- Two profiles of which both have the block `x`. -/
example : let heap : Heap := fun q => if q = 1 then ⟨['y'], 7⟩ else ⟨['x'], 2⟩
    let covs := [[0, 1], [2]]
    covs.flatten.Nodup ∧ (merge heap covs).2.map (merge heap covs).1 = [⟨['x'], 4⟩, ⟨['y'], 7⟩] := by
  decide

/-! ### Parse and print -/

theorem splitOn_nonl : ∀ (s w : Str), (∀ c ∈ w, c ≠ '\n') → ∀ t ∈ splitOn '\n' w s, '\n' ∉ t
  | [], w, hw, t, ht => by
    simp [splitOn] at ht; subst ht; exact fun h => hw _ h rfl
  | c :: s, w, hw, t, ht => by
    simp only [splitOn] at ht
    split at ht
    · rcases List.mem_cons.1 ht with rfl | ht
      · exact fun h => hw _ h rfl
      · exact splitOn_nonl s [] (by simp) t ht
    · rename_i hc
      refine splitOn_nonl s _ ?_ t ht
      intro d hd
      rcases List.mem_append.1 hd with hd | hd
      · exact hw d hd
      · simp at hd; subst hd; exact hc

theorem splitOn_single (t : Str) (ht : '\n' ∉ t) : ∀ w, splitOn '\n' w t = [w ++ t] := by
  induction t with
  | nil => simp [splitOn]
  | cons c t ih =>
    intro w
    simp only [List.mem_cons, not_or] at ht
    simp [splitOn, Ne.symm ht.1, ih ht.2]

theorem split_join : ∀ (ts : List Str), ts ≠ [] → (∀ t ∈ ts, '\n' ∉ t) → splitOn '\n' [] (joinLines ts) = ts
  | [], h, _ => absurd rfl h
  | [t], _, ht => by simpa [joinLines] using splitOn_single t (ht t (by simp)) []
  | t :: u :: ts, _, ht => by
    have ih := split_join (u :: ts) (by simp) (fun x hx => ht x (by simp [hx]))
    simp only [joinLines]
    rw [GoVersion.splitOn_word '\n' t (ht t (by simp))]
    simp [splitOn, ih]

theorem itoa_nat_nosep {d : Char} (hd : isDig d = false) (hm : d ≠ '-') (n : Int) : d ∉ itoa n := by
  unfold itoa
  have h := GoVersion.mem_dec_cut d hd n.natAbs
  split
  · simp [hm, h]
  · exact h

theorem parseInt64_itoa (n : Int) (h₁ : -(2 ^ 63) ≤ n) (h₂ : n < 2 ^ 63) : parseInt64 (itoa n) = some n := by
  unfold itoa
  split
  case isFalse h =>
    have : n = (n.natAbs : Int) := by omega
    rw [GoVersion.parseInt64_nat (by omega)]
    simp [← this]
  case isTrue h =>
    have hc := canonical_toDigits n.natAbs
    have hv : val (Nat.toDigits 10 n.natAbs) = n.natAbs := by
      simp [val, Nat.ofDigitChars_toDigits]
    have hne : Nat.toDigits 10 n.natAbs ≠ [] := by
      intro e; have := Nat.length_toDigits_pos (b := 10) (n := n.natAbs); rw [e] at this; simp at this
    have hall : (Nat.toDigits 10 n.natAbs).any (fun c => !isDig c) = false := by
      rw [List.any_eq_false]; intro c hc; simp [digit_toDigits hc]
    simp only [parseInt64, List.head?_cons, List.tail_cons, true_or, if_true, hne, hall, hv]
    simp
    omega

theorem parseCovLine_format (l : CovLine) : parseCovLine (l.pfx ++ ' ' :: itoa l.count.toInt) = some l := by
  have hsp : ' ' ∉ itoa l.count.toInt := itoa_nat_nosep (by decide) (by decide) _
  have hrev : (l.pfx ++ ' ' :: itoa l.count.toInt).reverse = (itoa l.count.toInt).reverse ++ ' ' :: l.pfx.reverse := by
    simp
  have hns : ' ' ∉ (itoa l.count.toInt).reverse := by simpa using hsp
  have hc := GoVersion.cut_at ' ' (itoa l.count.toInt).reverse l.pfx.reverse hns
  unfold parseCovLine
  rw [if_neg (by simp), hrev]
  have h1 := hc.1
  have h2 := hc.2
  have hp := parseInt64_itoa l.count.toInt (Int64.le_toInt _) (Int64.toInt_lt _)
  have h3 : (((itoa l.count.toInt).reverse ++ ' ' :: l.pfx.reverse).dropWhile (· != ' ')).drop 1 = l.pfx.reverse := by
    rw [List.drop_one]; exact h2
  simp only [h1, h3, List.reverse_reverse, hp, Int64.ofInt_toInt]

theorem dropWhile_head {p : Char → Bool} : ∀ (s : Str) (c : Char), (s.dropWhile p).head? = some c → p c = false
  | [], c, h => by simp at h
  | d :: s, c, h => by
    rw [List.dropWhile_cons] at h
    split at h
    · exact dropWhile_head s c h
    · rename_i hd
      simp at h
      subst h; simpa using hd

theorem dropWhile_id {p : Char → Bool} : ∀ (s : Str), (∀ c, s.head? = some c → p c = false) → s.dropWhile p = s
  | [], _ => rfl
  | d :: s, h => by rw [List.dropWhile_cons, if_neg]; simp [h d rfl]

theorem dropWhile_last {p : Char → Bool} (s : Str) (c : Char) (h : (s.dropWhile p).getLast? = some c) :
    s.getLast? = some c := by
  obtain ⟨t, ht⟩ := List.dropWhile_suffix (l := s) p
  rw [← ht, List.getLast?_append, h]; rfl

theorem reverse_head (s : Str) : s.reverse.head? = s.getLast? := by simp

/-- The result of `TrimSpace` has no space at either end. -/
theorem trim_ends (s : Str) : (∀ c, (trimSpace s).head? = some c → isSpace c = false) ∧
    (∀ c, (trimSpace s).getLast? = some c → isSpace c = false) := by
  unfold trimSpace
  constructor
  · intro c h
    rw [List.head?_reverse] at h
    have h' := dropWhile_last _ _ h
    rw [List.getLast?_reverse] at h'
    exact dropWhile_head _ _ h'
  · intro c h
    rw [List.getLast?_reverse] at h
    exact dropWhile_head _ _ h

/-- `TrimSpace` leaves alone what has no space at either end, also after a space. -/
theorem trim_id {s : Str} (h₁ : ∀ c, s.head? = some c → isSpace c = false)
    (h₂ : ∀ c, s.getLast? = some c → isSpace c = false) : trimSpace (' ' :: s) = s := by
  unfold trimSpace
  have : (' ' :: s).dropWhile isSpace = s := by
    rw [List.dropWhile_cons, if_pos (by decide), dropWhile_id _ h₁]
  rw [this, dropWhile_id _ (fun c h => h₂ c (by simpa using h)), List.reverse_reverse]

theorem mem_dropWhile {p : Char → Bool} {s : Str} {c : Char} (h : c ∈ s.dropWhile p) : c ∈ s :=
  (List.dropWhile_suffix p).subset h

theorem mem_trim {s : Str} {c : Char} (h : c ∈ trimSpace s) : c ∈ s := by
  unfold trimSpace at h
  have := mem_dropWhile (List.mem_reverse.1 h)
  exact mem_dropWhile (List.mem_reverse.1 this)

theorem parseCovLine_mem {line : Str} {l : CovLine} (h : parseCovLine line = some l) {c : Char} (hc : c ∈ l.pfx) :
    c ∈ line := by
  unfold parseCovLine at h
  split at h
  · cases h
  · cases h
    have := List.mem_of_mem_drop (List.mem_reverse.1 hc)
    simpa using mem_dropWhile this

/-- The characters that Unicode counts as white space. -/
def whiteSpace : List Nat :=
  [0x9, 0xa, 0xb, 0xc, 0xd, 0x20, 0x85, 0xa0, 0x1680, 0x2000, 0x2001, 0x2002, 0x2003, 0x2004, 0x2005, 0x2006, 0x2007, 0x2008, 0x2009,
    0x200a, 0x2028, 0x2029, 0x202f, 0x205f, 0x3000]

theorem isSpace_iff (c : Char) : isSpace c = false ↔ c.toNat ∉ whiteSpace := by
  unfold isSpace whiteSpace
  dsimp only
  generalize c.toNat = n
  simp only [Bool.or_eq_false_iff, Bool.and_eq_false_iff, decide_eq_false_iff_not, beq_eq_false_iff_ne, ne_eq, List.mem_cons,
    List.not_mem_nil, or_false, not_or]
  omega

/-- **C32.** Printing and parsing again gives back any mode without surrounding white space and any lines, as long
    as mode and blocks have no line breaks. -/
theorem C32_parse_format (mode : Str) (lines : List CovLine) (hm : '\n' ∉ mode)
    (h₁ : ∀ c, mode.head? = some c → c.toNat ∉ whiteSpace) (h₂ : ∀ c, mode.getLast? = some c → c.toNat ∉ whiteSpace)
    (hl : ∀ l ∈ lines, '\n' ∉ l.pfx) : parse (format mode lines) = (mode, lines) := by
  have h₁ := fun c hc => (isSpace_iff c).2 (h₁ c hc)
  have h₂ := fun c hc => (isSpace_iff c).2 (h₂ c hc)
  have hs : splitOn '\n' [] (format mode lines) =
      ("mode: ".toList ++ mode) :: lines.map fun l => l.pfx ++ ' ' :: itoa l.count.toInt := by
    refine split_join _ (by simp) ?_
    intro t ht
    rcases List.mem_cons.1 ht with rfl | ht
    · simp [hm]
    · obtain ⟨l, hl', rfl⟩ := List.mem_map.1 ht
      have := itoa_nat_nosep (d := '\n') (by decide) (by decide) l.count.toInt
      simp [hl l hl', this]
  unfold parse
  rw [hs]
  have hp : ("mode:".toList).isPrefixOf ("mode: ".toList ++ mode) = true := by simp [List.isPrefixOf]
  have hd : ("mode: ".toList ++ mode).drop 5 = ' ' :: mode := rfl
  have hf : (lines.map fun l => l.pfx ++ ' ' :: itoa l.count.toInt).filterMap parseCovLine = lines := by
    rw [List.filterMap_map]
    have : (parseCovLine ∘ fun l : CovLine => l.pfx ++ ' ' :: itoa l.count.toInt) = some := by
      funext l; exact parseCovLine_format l
    rw [this, List.filterMap_some]
  simp only [hp, if_true, hd, hf, trim_id h₁ h₂]

/-- **C32.** For every text: what was parsed, printed and parsed again is what was parsed. -/
theorem C32_round_trip (content : Str) :
    parse (format (parse content).1 (parse content).2) = parse content := by
  have hn := splitOn_nonl content [] (by simp)
  have key : ∀ (m : Str) (ls : List Str), '\n' ∉ m → (∀ l ∈ ls, '\n' ∉ l) →
      (∀ c, m.head? = some c → isSpace c = false) → (∀ c, m.getLast? = some c → isSpace c = false) →
      parse (format m (ls.filterMap parseCovLine)) = (m, ls.filterMap parseCovLine) := by
    intro m ls hm hls h₁ h₂
    refine C32_parse_format m _ hm (fun c hc => (isSpace_iff c).1 (h₁ c hc)) (fun c hc => (isSpace_iff c).1 (h₂ c hc)) ?_
    intro l hl hc
    obtain ⟨line, hline, hp⟩ := List.mem_filterMap.1 hl
    exact hls line hline (parseCovLine_mem hp hc)
  have hpc : ∃ m ls, parse content = (m, List.filterMap parseCovLine ls) ∧ '\n' ∉ m ∧ (∀ l ∈ ls, '\n' ∉ l) ∧
      (∀ c, m.head? = some c → isSpace c = false) ∧ (∀ c, m.getLast? = some c → isSpace c = false) := by
    unfold parse
    cases hsp : splitOn '\n' [] content with
    | nil => exact ⟨[], [], rfl, by simp, by simp, by simp, by simp⟩
    | cons first rest =>
      rw [hsp] at hn
      dsimp only
      split
      · refine ⟨_, rest, rfl, ?_, fun l hl => hn l (by simp [hl]), (trim_ends _).1, (trim_ends _).2⟩
        intro hc
        exact hn first (by simp) (List.mem_of_mem_drop (mem_trim hc))
      · exact ⟨[], first :: rest, rfl, by simp, hn, by simp, by simp⟩
  obtain ⟨m, ls, he, h1, h2, h3, h4⟩ := hpc
  rw [he]
  exact key m ls h1 h2 h3 h4

/-- What a count that is no number does, for instance with line ends `\r\n`: it is read as 0, without an error. -/
theorem C32_crlf_counts_lost (mode pfx count : Str) (hm : '\n' ∉ mode) (hp : '\n' ∉ pfx) (hc : '\n' ∉ count)
    (hs : ' ' ∉ count) :
    (parse ("mode: ".toList ++ mode ++ '\r' :: '\n' :: pfx ++ ' ' :: count ++ "\r\n".toList)).2 = [⟨pfx, 0⟩] := by
  have hsplit : splitOn '\n' [] ("mode: ".toList ++ mode ++ '\r' :: '\n' :: pfx ++ ' ' :: count ++ "\r\n".toList) =
      ["mode: ".toList ++ mode ++ ['\r'], pfx ++ ' ' :: count ++ ['\r'], []] := by
    rw [← split_join ["mode: ".toList ++ mode ++ ['\r'], pfx ++ ' ' :: count ++ ['\r'], []] (by simp)
      (by intro t ht; simp at ht; rcases ht with rfl | rfl | rfl <;> simp [hm, hp, hc])]
    simp [joinLines]
  have hpre : ("mode:".toList).isPrefixOf ("mode: ".toList ++ mode ++ ['\r']) = true := by simp [List.isPrefixOf]
  have hline : parseCovLine (pfx ++ ' ' :: count ++ ['\r']) = some ⟨pfx, 0⟩ := by
    have hrev : (pfx ++ ' ' :: count ++ ['\r']).reverse = (count ++ ['\r']).reverse ++ ' ' :: pfx.reverse := by simp
    have hns : ' ' ∉ (count ++ ['\r']).reverse := by simp [hs]
    have hcut := GoVersion.cut_at ' ' (count ++ ['\r']).reverse pfx.reverse hns
    unfold parseCovLine
    rw [if_neg (by simp), hrev]
    have h3 : (((count ++ ['\r']).reverse ++ ' ' :: pfx.reverse).dropWhile (· != ' ')).drop 1 = pfx.reverse := by
      rw [List.drop_one]; exact hcut.2
    have hpi : parseInt64 (count ++ ['\r']) = none := by
      unfold parseInt64
      have : (count ++ ['\r']) ≠ [] := by simp
      have hany : ∀ d : Str, d = (if (count ++ ['\r']).head? = some '-' ∨ (count ++ ['\r']).head? = some '+' then
          (count ++ ['\r']).tail else count ++ ['\r']) → d = [] ∨ d.any (fun c => !isDig c) = true := by
        intro d hd
        right
        rw [List.any_eq_true]
        refine ⟨'\r', ?_, by decide⟩
        rw [hd]
        split
        · cases count with
          | nil => rename_i h; simp at h
          | cons a count => simp
        · simp
      dsimp only
      rw [if_pos (hany _ rfl)]
    simp only [hcut.1, h3, List.reverse_reverse, hpi]
  have hnil : parseCovLine [] = none := rfl
  unfold parse
  rw [hsplit]
  simp only [hpre, if_true, List.filterMap_cons, hline, hnil, List.filterMap_nil]

example : parse "mode: set\na/b.go:1.2,3.4 1 -5\nno\nc.go:1.1,2.2 9 007\n".toList =
    ("set".toList, [⟨"a/b.go:1.2,3.4 1".toList, -5⟩, ⟨"c.go:1.1,2.2 9".toList, 7⟩]) := by decide +kernel

end Verif.Support.Coverage
