import Verif.Instrument.LoadSpec
/-
Theorems of C68.
-/
namespace Verif.Instrument.Load

open Spec

variable {σ : Type}

/-! ### Lists of goroutines -/

theorem flatMap_set_length {α β : Type} (t : α → List β) {l : List α} {i : Nat} {y : α} (h : l[i]? = some y) (x : α) :
    ((l.set i x).flatMap t).length + (t y).length = (l.flatMap t).length + (t x).length := by
  induction l generalizing i with
  | nil => simp at h
  | cons a l ih =>
    cases i with
    | zero => simp at h; subst h; simp; omega
    | succ i => simp at h; have := ih h; simp only [List.set_cons_succ, List.flatMap_cons, List.length_append]; omega

theorem mem_flatMap_set {α β : Type} (t : α → List β) {l : List α} {i : Nat} {y : α} (h : l[i]? = some y) (x : α) {b : β}
    (hb : b ∈ l.flatMap t) : b ∈ t y ∨ b ∈ (l.set i x).flatMap t := by
  induction l generalizing i with
  | nil => simp at h
  | cons a l ih =>
    cases i with
    | zero =>
      simp at h; subst h
      simp only [List.flatMap_cons, List.mem_append] at hb
      simp only [List.set_cons_zero, List.flatMap_cons, List.mem_append]
      rcases hb with hb | hb <;> simp [hb]
    | succ i =>
      simp at h
      simp only [List.flatMap_cons, List.mem_append] at hb
      simp only [List.set_cons_succ, List.flatMap_cons, List.mem_append]
      rcases hb with hb | hb
      · simp [hb]
      · rcases ih h hb with h | h <;> simp [h]

theorem mem_set_self {α : Type} {l : List α} {i : Nat} {y : α} (h : l[i]? = some y) (x : α) : x ∈ l.set i x := by
  have hi : i < l.length := by
    rcases Nat.lt_or_ge i l.length with h' | h'
    · exact h'
    · rw [List.getElem?_eq_none h'] at h; cases h
  exact List.mem_set hi x

theorem mem_set_old {α : Type} {l : List α} {i : Nat} {y : α} (h : l[i]? = some y) (x : α) {z : α} (hz : z ∈ l) :
    z = y ∨ z ∈ l.set i x := by
  induction l generalizing i with
  | nil => simp at h
  | cons a l ih =>
    cases i with
    | zero =>
      simp at h; subst h
      rcases List.mem_cons.1 hz with h | h
      · exact .inl h
      · right; simp [h]
    | succ i =>
      simp at h
      rcases List.mem_cons.1 hz with h' | h'
      · right; simp [h']
      · rcases ih h h' with h | h
        · exact .inl h
        · right; simp [h]

/-! ### Files on their way -/

def rtok : RPc → List Nat
  | .reading f | .failed f _ | .push f => [f]
  | _ => []

def ptok : PPc σ → List Nat
  | .parsing f | .parsed f _ _ | .parsed2 f _ | .fin f => [f]
  | _ => []

def mtok : MPc → List Nat
  | .send k => [k]
  | _ => []

def live (s : State σ) : List Nat :=
  mtok s.main ++ (s.readQ ++ (s.readers.flatMap rtok ++ (s.parseQ ++ s.parsers.flatMap ptok)))

/-- How many files were taken up. -/
def next (E : Env σ) : MPc → Nat
  | .add k => k
  | .send k => k + 1
  | _ => E.files.length

def over : MPc → Bool
  | .filter .. | .ret _ => true
  | _ => false

def late : MPc → Bool
  | .close | .filter .. | .ret _ => true
  | _ => false

/-! ### Memory -/

variable (E : Env σ)

/-- One memory is as good as another. -/
def Le (m m' : Nat → Cell σ) : Prop := ∀ f,
  (∀ c, E.read (path E f) = .ok c →
    ((m f).content = normCRLF c → (m' f).content = normCRLF c) ∧
    ((m f).err = (E.parse (path E f) (normCRLF c)).2 → (m' f).err = (E.parse (path E f) (normCRLF c)).2) ∧
    ((m f).syn = (E.parse (path E f) (normCRLF c)).1 → (m' f).syn = (E.parse (path E f) (normCRLF c)).1)) ∧
  (∀ e, E.read (path E f) = .error e →
    ((m f).err = some e → (m' f).err = some e) ∧ (m' f).content = (m f).content ∧ (m' f).syn = (m f).syn)

def HasC (m : Nat → Cell σ) (f : Nat) : Prop := ∃ c, E.read (path E f) = .ok c ∧ (m f).content = normCRLF c

def RGood (m : Nat → Cell σ) : RPc → Prop
  | .failed f e | .failed2 f e => E.read (path E f) = .error e
  | .push f => HasC E m f
  | _ => True

def PGood (m : Nat → Cell σ) : PPc σ → Prop
  | .parsing f => HasC E m f
  | .parsed f syn err => ∃ c, E.read (path E f) = .ok c ∧ (m f).content = normCRLF c ∧
      syn = (E.parse (path E f) (normCRLF c)).1 ∧ err = (E.parse (path E f) (normCRLF c)).2
  | .parsed2 f syn => ∃ c, E.read (path E f) = .ok c ∧ (m f).content = normCRLF c ∧
      syn = (E.parse (path E f) (normCRLF c)).1 ∧ (m f).err = (E.parse (path E f) (normCRLF c)).2
  | .fin f => ∃ c, E.read (path E f) = .ok c ∧ (m f).content = normCRLF c ∧
      (m f).syn = (E.parse (path E f) (normCRLF c)).1 ∧ (m f).err = (E.parse (path E f) (normCRLF c)).2
  | _ => True

def HoldsAt (m : Nat → Cell σ) (f : Nat) : Prop := Holds E.read E.parse (path E f) (m f)

variable {E}

theorem Le.refl (m : Nat → Cell σ) : Le E m m := fun _ => ⟨fun _ _ => ⟨id, id, id⟩, fun _ _ => ⟨id, rfl, rfl⟩⟩

theorem HasC.mono {m m' : Nat → Cell σ} {f : Nat} (h : Le E m m') (hc : HasC E m f) : HasC E m' f := by
  obtain ⟨c, h1, h2⟩ := hc
  exact ⟨c, h1, ((h f).1 c h1).1 h2⟩

theorem RGood.mono {m m' : Nat → Cell σ} {r : RPc} (h : Le E m m') (hc : RGood E m r) : RGood E m' r := by
  cases r with
  | push f => exact HasC.mono h hc
  | _ => exact hc

theorem PGood.mono {m m' : Nat → Cell σ} {p : PPc σ} (h : Le E m m') (hc : PGood E m p) : PGood E m' p := by
  cases p with
  | parsing f => exact HasC.mono h hc
  | parsed f a b => obtain ⟨c, h1, h2, h3, h4⟩ := hc; exact ⟨c, h1, ((h f).1 c h1).1 h2, h3, h4⟩
  | parsed2 f a => obtain ⟨c, h1, h2, h3, h4⟩ := hc; exact ⟨c, h1, ((h f).1 c h1).1 h2, h3, ((h f).1 c h1).2.1 h4⟩
  | fin f => obtain ⟨c, h1, h2, h3, h4⟩ := hc; exact ⟨c, h1, ((h f).1 c h1).1 h2, ((h f).1 c h1).2.2 h3, ((h f).1 c h1).2.1 h4⟩
  | _ => exact hc

theorem cell_ext {a b : Cell σ} (h1 : a.content = b.content) (h2 : a.err = b.err) (h3 : a.syn = b.syn) : a = b := by
  cases a; cases b; simp_all

theorem holds_ok {m : Nat → Cell σ} {f : Nat} {c : List Char} (h : E.read (path E f) = .ok c) :
    HoldsAt E m f ↔ (m f).content = normCRLF c ∧ (m f).err = (E.parse (path E f) (normCRLF c)).2 ∧
      (m f).syn = (E.parse (path E f) (normCRLF c)).1 := by
  simp only [HoldsAt, Holds, Spec.load, h]
  constructor
  · intro h; rw [h]; simp
  · rintro ⟨h1, h2, h3⟩; exact cell_ext h1 h2 h3

theorem holds_error {m : Nat → Cell σ} {f : Nat} {e : String} (h : E.read (path E f) = .error e) :
    HoldsAt E m f ↔ (m f).content = [] ∧ (m f).err = some e ∧ (m f).syn = none := by
  simp only [HoldsAt, Holds, Spec.load, h]
  constructor
  · intro h; rw [h]; simp
  · rintro ⟨h1, h2, h3⟩; exact cell_ext h1 h2 h3

theorem HoldsAt.mono {m m' : Nat → Cell σ} {f : Nat} (h : Le E m m') (hc : HoldsAt E m f) : HoldsAt E m' f := by
  cases hr : E.read (path E f) with
  | ok c =>
    rw [holds_ok hr] at hc ⊢
    have := (h f).1 c hr
    exact ⟨this.1 hc.1, this.2.1 hc.2.1, this.2.2 hc.2.2⟩
  | error e =>
    rw [holds_error hr] at hc ⊢
    have := (h f).2 e hr
    exact ⟨this.2.1.trans hc.1, this.1 hc.2.1, this.2.2.trans hc.2.2⟩

theorem le_content {s : State σ} {f : Nat} {c : List Char} (h : E.read (path E f) = .ok c) :
    Le E s.mem (write s f (fun x => { x with content := normCRLF c })).mem := by
  intro g
  simp only [write]
  split
  · next hg =>
    subst hg
    refine ⟨fun c' h' => ?_, fun e h' => ?_⟩
    · rw [h] at h'; cases h'; simp
    · rw [h] at h'; cases h'
  · exact ⟨fun _ _ => ⟨id, id, id⟩, fun _ _ => ⟨id, rfl, rfl⟩⟩

theorem le_err {s : State σ} {f : Nat} {c : List Char} (h : E.read (path E f) = .ok c) :
    Le E s.mem (write s f (fun x => { x with err := (E.parse (path E f) (normCRLF c)).2 })).mem := by
  intro g
  simp only [write]
  split
  · next hg =>
    subst hg
    refine ⟨fun c' h' => ?_, fun e h' => ?_⟩
    · rw [h] at h'; cases h'; simp
    · rw [h] at h'; cases h'
  · exact ⟨fun _ _ => ⟨id, id, id⟩, fun _ _ => ⟨id, rfl, rfl⟩⟩

theorem le_syn {s : State σ} {f : Nat} {c : List Char} (h : E.read (path E f) = .ok c) :
    Le E s.mem (write s f (fun x => { x with syn := (E.parse (path E f) (normCRLF c)).1 })).mem := by
  intro g
  simp only [write]
  split
  · next hg =>
    subst hg
    refine ⟨fun c' h' => ?_, fun e h' => ?_⟩
    · rw [h] at h'; cases h'; simp
    · rw [h] at h'; cases h'
  · exact ⟨fun _ _ => ⟨id, id, id⟩, fun _ _ => ⟨id, rfl, rfl⟩⟩

theorem le_fail {s : State σ} {f : Nat} {e : String} (h : E.read (path E f) = .error e) :
    Le E s.mem (write s f (fun x => { x with err := some e })).mem := by
  intro g
  simp only [write]
  split
  · next hg =>
    subst hg
    refine ⟨fun c' h' => ?_, fun e' h' => ?_⟩
    · rw [h] at h'; cases h'
    · rw [h] at h'; cases h'; simp
  · exact ⟨fun _ _ => ⟨id, id, id⟩, fun _ _ => ⟨id, rfl, rfl⟩⟩

/-! ### The kept files -/

def goodAt (E : Env σ) (f : Nat) : Bool := good E.read E.parse (path E f)

def bad (E : Env σ) (f : Nat) : Prop := ∃ e, E.read (path E f) = .error e

theorem goodAt_ok {f : Nat} {c : List Char} (h : E.read (path E f) = .ok c) :
    goodAt E f = (E.parse (path E f) (normCRLF c)).2.isNone := by simp [goodAt, good, Spec.load, h]

theorem goodAt_error {f : Nat} {e : String} (h : E.read (path E f) = .error e) : goodAt E f = false := by
  simp [goodAt, good, Spec.load, h]

/-- `kept` is a selection from the first `k` files that has all good ones and, if errors are filtered, no file that could be
read but not parsed. -/
def KeptOK (E : Env σ) (k : Nat) (kept : List Nat) : Prop := ∃ p : Nat → Bool, kept = (List.range k).filter p ∧
  ∀ f < k, (goodAt E f = true → p f = true) ∧ (E.filterErr = true → p f = true → goodAt E f = true ∨ bad E f) ∧
    (E.filterErr = false → p f = true)

theorem KeptOK.nil : KeptOK E 0 [] := ⟨fun _ => true, by simp, by simp⟩

theorem KeptOK.snoc {k : Nat} {kept : List Nat} {b : Bool} (h : KeptOK E k kept) (h1 : goodAt E k = true → b = true)
    (h2 : E.filterErr = true → b = true → goodAt E k = true ∨ bad E k) (h3 : E.filterErr = false → b = true) :
    KeptOK E (k + 1) (kept ++ if b then [k] else []) := by
  obtain ⟨p, hp, hq⟩ := h
  refine ⟨fun i => if i = k then b else p i, ?_, ?_⟩
  · rw [List.range_succ, List.filter_append, hp]
    congr 1
    · apply List.filter_congr
      intro i hi
      have := List.mem_range.1 hi
      rw [if_neg (by omega)]
    · cases b <;> simp
  · intro f hf
    by_cases hk : f = k
    · subst hk; simp only; rw [if_pos trivial]; exact ⟨h1, h2, h3⟩
    · simp only [if_neg hk]; exact hq f (by omega)

/-! ### The invariant -/

variable (E) in
structure Inv (s : State σ) : Prop where
  wgEq : s.wg = (live s).length
  nocrash : s.crashed = false
  lenR : s.readers.length = E.nIO
  lenP : s.parsers.length = E.nCPU
  bound : next E s.main ≤ E.files.length
  cover : ∀ f < next E s.main, f ∈ live s ∨ (∃ e, .failed2 f e ∈ s.readers) ∨ HoldsAt E s.mem f
  doneOK : s.done = over s.main
  exitR : .exited ∈ s.readers → s.done = true
  exitP : .exited ∈ s.parsers → s.done = true
  lateOK : late s.main = true → live s = []
  rOK : ∀ r ∈ s.readers, RGood E s.mem r
  pOK : ∀ p ∈ s.parsers, PGood E s.mem p
  qOK : ∀ f ∈ s.parseQ, HasC E s.mem f
  memOK : ∀ f e, E.read (path E f) = .error e → (s.mem f).content = [] ∧ (s.mem f).syn = none ∧
    ((s.mem f).err = none ∨ (s.mem f).err = some e)
  kept : (∀ k l, s.main = .filter k l → k ≤ E.files.length ∧ KeptOK E k l) ∧
    (∀ l, s.main = .ret l → KeptOK E E.files.length l)

theorem flatMap_replicate_nil {α β : Type} (t : α → List β) (x : α) (h : t x = []) (n : Nat) :
    (List.replicate n x).flatMap t = [] := by
  induction n with
  | zero => rfl
  | succ n ih => simp [List.replicate_succ, h, ih]

theorem live_init : live (init E) = [] := by
  simp [live, init, mtok, flatMap_replicate_nil rtok .idle rfl, flatMap_replicate_nil (ptok (σ := σ)) .idle rfl]

theorem Inv.init : Inv E (init E) where
  wgEq := by rw [live_init]; rfl
  nocrash := rfl
  lenR := by simp [Load.init]
  lenP := by simp [Load.init]
  bound := Nat.zero_le _
  cover := by intro f hf; exact absurd hf (Nat.not_lt_zero f)
  doneOK := rfl
  exitR := by intro h; have := List.eq_of_mem_replicate h; cases this
  exitP := by intro h; have := List.eq_of_mem_replicate h; cases this
  lateOK := by intro h; cases h
  rOK := by intro r h; have := List.eq_of_mem_replicate h; subst this; trivial
  pOK := by intro r h; have := List.eq_of_mem_replicate h; subst this; trivial
  qOK := by intro f h; cases h
  memOK := by intro f e h; exact ⟨rfl, rfl, .inl rfl⟩
  kept := ⟨(by intro k l h; cases h), (by intro l h; cases h)⟩

theorem mem_live {s : State σ} {f : Nat} : f ∈ live s ↔ f ∈ mtok s.main ∨ f ∈ s.readQ ∨ f ∈ s.readers.flatMap rtok ∨
    f ∈ s.parseQ ∨ f ∈ s.parsers.flatMap ptok := by simp only [live, List.mem_append]

theorem Inv.main {s s' : State σ} (h : Inv E s) (hs : stepMain E s = some s') : Inv E s' := by
  have hl := h.wgEq
  simp only [stepMain] at hs
  split at hs
  · next k hk =>
    have hb := h.bound
    have hc := h.cover
    have hd := h.doneOK
    simp only [hk, next, over] at hb hc hd
    split at hs
    · next hlt =>
      cases hs
      refine { h with wgEq := ?_, bound := ?_, cover := ?_, doneOK := ?_, lateOK := ?_, kept := ?_ }
      · simp only [live, hk, mtok, List.length_append, List.length_nil, List.length_cons] at hl ⊢; omega
      · simp only [next]; omega
      · intro f hf
        simp only [next] at hf
        rcases Nat.lt_succ_iff_lt_or_eq.1 hf with hf | hf
        · rcases hc f hf with h1 | h1
          · left; rw [mem_live] at h1 ⊢; rw [hk] at h1; simp only [mtok] at h1 ⊢
            rcases h1 with h1 | h1
            · cases h1
            · exact .inr h1
          · exact .inr h1
        · left; rw [mem_live]; simp [mtok, hf]
      · simpa [over] using hd
      · simp [late]
      · simp
    · next hlt =>
      cases hs
      have hkn : k = E.files.length := by omega
      subst hkn
      refine { h with wgEq := ?_, bound := Nat.le_refl _, cover := ?_, doneOK := ?_, lateOK := ?_, kept := ?_ }
      · simpa only [live, hk, mtok] using hl
      · intro f hf
        rcases hc f hf with h1 | h1
        · left; rw [mem_live] at h1 ⊢; rw [hk] at h1; exact h1
        · exact .inr h1
      · simpa [over] using hd
      · simp [late]
      · simp
  · next k hk =>
    have hb := h.bound
    have hc := h.cover
    have hd := h.doneOK
    simp only [hk, next, over] at hb hc hd
    split at hs
    · cases hs
      refine { h with wgEq := ?_, bound := ?_, cover := ?_, doneOK := ?_, lateOK := ?_, kept := ?_ }
      · simp only [live, hk, mtok, List.length_append, List.length_nil, List.length_cons] at hl ⊢; omega
      · simpa only [next] using hb
      · intro f hf
        rcases hc f hf with h1 | h1
        · left; rw [mem_live] at h1 ⊢; rw [hk] at h1; simp only [mtok, List.mem_append] at h1 ⊢
          rcases h1 with h1 | h1 | h1
          · exact .inr (.inl (.inr h1))
          · exact .inr (.inl (.inl h1))
          · exact .inr (.inr h1)
        · exact .inr h1
      · simpa [over] using hd
      · simp [late]
      · simp
    · cases hs
  · next hk =>
    have hc := h.cover
    have hd := h.doneOK
    simp only [hk, next, over] at hc hd
    split at hs
    · next h0 =>
      cases hs
      have hlv : live s = [] := by rw [h0] at hl; exact List.length_eq_zero_iff.1 hl.symm
      have hlv' : live ({ s with main := .close } : State σ) = [] := by simpa only [live, hk, mtok] using hlv
      refine { h with wgEq := ?_, bound := Nat.le_refl _, cover := ?_, doneOK := ?_, lateOK := ?_, kept := ?_ }
      · rw [hlv']; exact h0
      · intro f hf
        rcases hc f hf with h1 | h1
        · rw [hlv] at h1; cases h1
        · exact .inr h1
      · simpa [over] using hd
      · intro _; exact hlv'
      · simp
    · cases hs
  · next hk =>
    cases hs
    have hc := h.cover
    simp only [hk, next] at hc
    have hlv : live s = [] := h.lateOK (by rw [hk]; rfl)
    have hlv' : live ({ s with done := true, main := .filter 0 [] } : State σ) = [] := by
      simpa only [live, hk, mtok] using hlv
    refine { h with wgEq := ?_, bound := Nat.le_refl _, cover := ?_, doneOK := rfl, lateOK := ?_, exitR := ?_, exitP := ?_, kept := ?_ }
    · rw [hlv']; rw [hlv] at hl; exact hl
    · intro f hf
      rcases hc f hf with h1 | h1
      · rw [hlv] at h1; cases h1
      · exact .inr h1
    · intro _; rfl
    · intro _; rfl
    · intro _; exact hlv'
    · refine ⟨?_, (by simp)⟩
      intro k l hkl; cases hkl; exact ⟨Nat.zero_le _, KeptOK.nil⟩
  · next k l hk =>
    have hc := h.cover
    have hd := h.doneOK
    simp only [hk, next, over] at hc hd
    have hlv : live s = [] := h.lateOK (by rw [hk]; rfl)
    obtain ⟨hkn, hkk⟩ := h.kept.1 k l hk
    split at hs
    · next hlt =>
      have hck := hc k hlt
      have herr : (goodAt E k = true → (s.mem k).err = none) ∧ ((s.mem k).err = none → goodAt E k = true ∨ bad E k) := by
        rcases hck with h1 | ⟨e, h1⟩ | h1
        · rw [hlv] at h1; cases h1
        · have := h.rOK _ h1
          simp only [RGood] at this
          exact ⟨fun hg => by (rw [goodAt_error this] at hg; cases hg), fun _ => .inr ⟨e, this⟩⟩
        · cases hr : E.read (path E k) with
          | ok c =>
            rw [holds_ok hr] at h1
            rw [goodAt_ok hr, h1.2.1]
            constructor
            · intro h; simpa using h
            · intro h; left; simp [h]
          | error e => exact ⟨fun hg => by (rw [goodAt_error hr] at hg; cases hg), fun _ => .inr ⟨e, hr⟩⟩
      split at hs
      · next hf =>
        cases hs
        have hlv' : live ({ s with main := .filter (k + 1) l } : State σ) = [] := by
          simpa only [live, hk, mtok] using hlv
        refine { h with wgEq := ?_, bound := Nat.le_refl _, cover := ?_, doneOK := ?_, lateOK := fun _ => hlv', kept := ⟨?_, (by simp)⟩ }
        · rw [hlv']; rw [hlv] at hl; exact hl
        · intro f hf
          rcases hc f hf with h1 | h1
          · rw [hlv] at h1; cases h1
          · exact .inr h1
        · simpa [over] using hd
        · intro k' l' e; cases e
          refine ⟨hlt, ?_⟩
          have := hkk.snoc (b := false) (fun hg => absurd (herr.1 hg) hf.2) (fun _ hb => by cases hb)
            (fun hb => by rw [hb] at hf; exact absurd hf.1 (by simp))
          simpa using this
      · next hf =>
        cases hs
        have hlv' : live ({ s with main := .filter (k + 1) (l ++ [k]) } : State σ) = [] := by
          simpa only [live, hk, mtok] using hlv
        refine { h with wgEq := ?_, bound := Nat.le_refl _, cover := ?_, doneOK := ?_, lateOK := fun _ => hlv', kept := ⟨?_, (by simp)⟩ }
        · rw [hlv']; rw [hlv] at hl; exact hl
        · intro f hf
          rcases hc f hf with h1 | h1
          · rw [hlv] at h1; cases h1
          · exact .inr h1
        · simpa [over] using hd
        · intro k' l' e; cases e
          refine ⟨hlt, ?_⟩
          have := hkk.snoc (b := true) (fun _ => rfl) (fun hb _ => herr.2 (Decidable.not_not.1 (fun hn => hf ⟨hb, hn⟩)))
            (fun _ => rfl)
          simpa using this
    · next hlt =>
      cases hs
      have hlv' : live ({ s with main := .ret l } : State σ) = [] := by
        simpa only [live, hk, mtok] using hlv
      refine { h with wgEq := ?_, bound := Nat.le_refl _, cover := ?_, doneOK := ?_, lateOK := fun _ => hlv', kept := ⟨(by simp), ?_⟩ }
      · rw [hlv']; rw [hlv] at hl; exact hl
      · intro f hf
        rcases hc f hf with h1 | h1
        · rw [hlv] at h1; cases h1
        · exact .inr h1
      · simpa [over] using hd
      · intro l' e; cases e
        have : k = E.files.length := by omega
        rw [this] at hkk
        exact hkk
  · cases hs

theorem mem_set_new {α : Type} {l : List α} {i : Nat} {x z : α} (h : z ∈ l.set i x) : z = x ∨ z ∈ l := by
  rcases List.mem_or_eq_of_mem_set h with h | h
  · exact .inr h
  · exact .inl h

theorem Inv.rset {s s' : State σ} (h : Inv E s) {i : Nat} {x y : RPc} (hy : s.readers[i]? = some y)
    (hr : s'.readers = s.readers.set i x) (hp : s'.parsers = s.parsers) (hm : s'.main = s.main) (hd : s'.done = s.done)
    (hcr : s'.crashed = false) (hle : Le E s.mem s'.mem)
    (hmem : ∀ f e, E.read (path E f) = .error e → (s'.mem f).content = [] ∧ (s'.mem f).syn = none ∧
      ((s'.mem f).err = none ∨ (s'.mem f).err = some e))
    (hx : RGood E s'.mem x) (hq : ∀ f ∈ s'.parseQ, f ∈ s.parseQ ∨ HasC E s'.mem f)
    (hwg : s'.wg = (live s').length) (hlen : (live s').length ≤ (live s).length)
    (hcov : ∀ f ∈ live s, f ∈ live s' ∨ (∃ e, x = .failed2 f e) ∨ HoldsAt E s'.mem f)
    (hf2 : ∀ f e, y = .failed2 f e → HoldsAt E s'.mem f) (hex : x = .exited → s.done = true) : Inv E s' where
  wgEq := hwg
  nocrash := hcr
  lenR := by rw [hr, List.length_set]; exact h.lenR
  lenP := by rw [hp]; exact h.lenP
  bound := by rw [hm]; exact h.bound
  cover := by
    intro f hf
    rw [hm] at hf
    rcases h.cover f hf with h1 | ⟨e, h1⟩ | h1
    · rcases hcov f h1 with h1 | ⟨e, h1⟩ | h1
      · exact .inl h1
      · refine .inr (.inl ⟨e, ?_⟩)
        rw [hr, ← h1]; exact mem_set_self hy x
      · exact .inr (.inr h1)
    · rcases mem_set_old hy x h1 with h2 | h2
      · exact .inr (.inr (hf2 f e h2.symm))
      · exact .inr (.inl ⟨e, by rw [hr]; exact h2⟩)
    · exact .inr (.inr (HoldsAt.mono hle h1))
  doneOK := by rw [hd, hm]; exact h.doneOK
  exitR := by
    intro he
    rw [hr] at he
    rw [hd]
    rcases mem_set_new he with he | he
    · exact hex he.symm
    · exact h.exitR he
  exitP := by rw [hp, hd]; exact h.exitP
  lateOK := by
    intro hl
    rw [hm] at hl
    have := h.lateOK hl
    rw [this] at hlen
    exact List.length_eq_zero_iff.1 (Nat.le_zero.1 hlen)
  rOK := by
    intro r hr'
    rw [hr] at hr'
    rcases mem_set_new hr' with h1 | h1
    · rw [h1]; exact hx
    · exact RGood.mono hle (h.rOK r h1)
  pOK := by
    intro p hp'
    rw [hp] at hp'
    exact PGood.mono hle (h.pOK p hp')
  qOK := by
    intro f hf
    rcases hq f hf with h1 | h1
    · exact HasC.mono hle (h.qOK f h1)
    · exact h1
  memOK := hmem
  kept := by rw [hm]; exact h.kept

theorem Inv.pset {s s' : State σ} (h : Inv E s) {i : Nat} {x y : PPc σ} (_hy : s.parsers[i]? = some y)
    (hr : s'.parsers = s.parsers.set i x) (hp : s'.readers = s.readers) (hm : s'.main = s.main) (hd : s'.done = s.done)
    (hcr : s'.crashed = false) (hle : Le E s.mem s'.mem)
    (hmem : ∀ f e, E.read (path E f) = .error e → (s'.mem f).content = [] ∧ (s'.mem f).syn = none ∧
      ((s'.mem f).err = none ∨ (s'.mem f).err = some e))
    (hx : PGood E s'.mem x) (hq : ∀ f ∈ s'.parseQ, f ∈ s.parseQ)
    (hwg : s'.wg = (live s').length) (hlen : (live s').length ≤ (live s).length)
    (hcov : ∀ f ∈ live s, f ∈ live s' ∨ HoldsAt E s'.mem f) (hex : x = .exited → s.done = true) : Inv E s' where
  wgEq := hwg
  nocrash := hcr
  lenP := by rw [hr, List.length_set]; exact h.lenP
  lenR := by rw [hp]; exact h.lenR
  bound := by rw [hm]; exact h.bound
  cover := by
    intro f hf
    rw [hm] at hf
    rcases h.cover f hf with h1 | ⟨e, h1⟩ | h1
    · rcases hcov f h1 with h1 | h1
      · exact .inl h1
      · exact .inr (.inr h1)
    · exact .inr (.inl ⟨e, by rw [hp]; exact h1⟩)
    · exact .inr (.inr (HoldsAt.mono hle h1))
  doneOK := by rw [hd, hm]; exact h.doneOK
  exitP := by
    intro he
    rw [hr] at he
    rw [hd]
    rcases mem_set_new he with he | he
    · exact hex he.symm
    · exact h.exitP he
  exitR := by rw [hp, hd]; exact h.exitR
  lateOK := by
    intro hl
    rw [hm] at hl
    have := h.lateOK hl
    rw [this] at hlen
    exact List.length_eq_zero_iff.1 (Nat.le_zero.1 hlen)
  pOK := by
    intro r hr'
    rw [hr] at hr'
    rcases mem_set_new hr' with h1 | h1
    · rw [h1]; exact hx
    · exact PGood.mono hle (h.pOK r h1)
  rOK := by
    intro p hp'
    rw [hp] at hp'
    exact RGood.mono hle (h.rOK p hp')
  qOK := by
    intro f hf
    exact HasC.mono hle (h.qOK f (hq f hf))
  memOK := hmem
  kept := by rw [hm]; exact h.kept

theorem memOK_keep {s s0 : State σ} (h : Inv E s) (hm : s0.mem = s.mem) {f : Nat} {c : List Char} (hr : E.read (path E f) = .ok c) (g : Cell σ → Cell σ) :
    ∀ f' e, E.read (path E f') = .error e → ((write s0 f g).mem f').content = [] ∧ ((write s0 f g).mem f').syn = none ∧
      (((write s0 f g).mem f').err = none ∨ ((write s0 f g).mem f').err = some e) := by
  intro f' e he
  simp only [write]
  split
  · next hf => subst hf; rw [hr] at he; cases he
  · rw [hm]; exact h.memOK f' e he

theorem Inv.reader {s s' : State σ} (h : Inv E s) {i : Nat} {b : Bool} (hs : stepReader E s i b = some s') : Inv E s' := by
  have hl := h.wgEq
  have hlen := fun {y : RPc} (hy : s.readers[i]? = some y) (x : RPc) => flatMap_set_length rtok hy x
  have hmem := fun {y : RPc} (hy : s.readers[i]? = some y) (x : RPc) (f : Nat) (hb : f ∈ s.readers.flatMap rtok) =>
    mem_flatMap_set rtok hy x hb
  simp only [stepReader] at hs
  split at hs
  · next hy =>
    split at hs
    · split at hs
      · next hd =>
        cases hs
        have e1 := hlen hy .exited
        simp only [rtok, List.length_nil] at e1
        refine h.rset (x := .exited) hy rfl rfl rfl rfl h.nocrash (Le.refl _) h.memOK trivial (fun f hf => .inl hf) ?_ ?_ ?_ ?_ ?_
        · simp only [live, List.length_append] at hl ⊢; omega
        · simp only [live, List.length_append] at hl ⊢; omega
        · intro f hf
          left
          rw [mem_live] at hf ⊢
          rcases hf with hf | hf | hf | hf | hf
          · simp [hf]
          · simp [hf]
          · rcases hmem hy .exited f hf with h1 | h1
            · cases h1
            · exact .inr (.inr (.inl h1))
          · simp [hf]
          · exact .inr (.inr (.inr (.inr hf)))
        · intro f e he; cases he
        · intro _; exact hd
      · cases hs
    · split at hs
      · cases hs
      · next f q hq =>
        cases hs
        have e1 := hlen hy (.reading f)
        simp only [rtok, List.length_nil, List.length_cons] at e1
        refine h.rset (x := .reading f) hy rfl rfl rfl rfl h.nocrash (Le.refl _) h.memOK trivial (fun f hf => .inl hf) ?_ ?_ ?_ ?_ ?_
        · simp only [live, hq, List.length_append, List.length_cons] at hl ⊢; omega
        · simp only [live, hq, List.length_append, List.length_cons] at hl ⊢; omega
        · intro g hf
          left
          rw [mem_live] at hf ⊢
          rw [hq] at hf
          rcases hf with hf | hf | hf | hf | hf
          · simp [hf]
          · rcases List.mem_cons.1 hf with hf | hf
            · right; right; left
              subst hf
              exact List.mem_flatMap.2 ⟨_, mem_set_self hy (.reading g), by simp [rtok]⟩
            · simp [hf]
          · rcases hmem hy (.reading f) g hf with h1 | h1
            · cases h1
            · exact .inr (.inr (.inl h1))
          · simp [hf]
          · exact .inr (.inr (.inr (.inr hf)))
        · intro f e he; cases he
        · intro he; cases he
  · next f hy =>
    cases hs
    simp only [stepRead]
    split
    · next e he =>
      have e1 := hlen hy (.failed f e)
      simp only [rtok, List.length_cons, List.length_nil] at e1
      refine h.rset (x := .failed f e) hy rfl rfl rfl rfl h.nocrash (Le.refl _) h.memOK he (fun f hf => .inl hf) ?_ ?_ ?_ ?_ ?_
      · simp only [live, List.length_append] at hl ⊢; omega
      · simp only [live, List.length_append] at hl ⊢; omega
      · intro g hf
        left
        rw [mem_live] at hf ⊢
        rcases hf with hf | hf | hf | hf | hf
        · simp [hf]
        · simp [hf]
        · rcases hmem hy (.failed f e) g hf with h1 | h1
          · simp only [rtok, List.mem_singleton] at h1
            subst h1
            exact .inr (.inr (.inl (List.mem_flatMap.2 ⟨_, mem_set_self hy (.failed g e), by simp [rtok]⟩)))
          · exact .inr (.inr (.inl h1))
        · simp [hf]
        · exact .inr (.inr (.inr (.inr hf)))
      · intro f e he; cases he
      · intro he; cases he
    · next c hc =>
      have e1 := hlen hy (.push f)
      simp only [rtok, List.length_cons, List.length_nil] at e1
      refine h.rset (x := .push f) hy rfl rfl rfl rfl h.nocrash (le_content hc) (memOK_keep h (by rfl) hc _) ?_ (fun f hf => .inl hf) ?_ ?_ ?_ ?_ ?_
      · exact ⟨c, hc, by simp [write]⟩
      · simp only [live, write, List.length_append] at hl ⊢; omega
      · simp only [live, write, List.length_append] at hl ⊢; omega
      · intro g hf
        left
        rw [mem_live] at hf ⊢
        simp only [write]
        rcases hf with hf | hf | hf | hf | hf
        · simp [hf]
        · simp [hf]
        · rcases hmem hy (.push f) g hf with h1 | h1
          · simp only [rtok, List.mem_singleton] at h1
            subst h1
            exact .inr (.inr (.inl (List.mem_flatMap.2 ⟨_, mem_set_self hy (.push g), by simp [rtok]⟩)))
          · exact .inr (.inr (.inl h1))
        · simp [hf]
        · exact .inr (.inr (.inr (.inr hf)))
      · intro f e he; cases he
      · intro he; cases he
  · next f e hy =>
    cases hs
    have hg := h.rOK _ (List.mem_of_getElem? hy)
    have e1 := hlen hy (.failed2 f e)
    simp only [rtok, List.length_cons, List.length_nil] at e1
    have hpos : s.wg ≠ 0 := by simp only [live, List.length_append] at hl; omega
    simp only [wgDone, if_neg hpos]
    refine h.rset (x := .failed2 f e) hy rfl rfl rfl rfl h.nocrash (Le.refl _) h.memOK hg (fun f hf => .inl hf) ?_ ?_ ?_ ?_ ?_
    · simp only [live, List.length_append] at hl ⊢; omega
    · simp only [live, List.length_append] at hl ⊢; omega
    · intro g hf
      rw [mem_live] at hf ⊢
      rcases hf with hf | hf | hf | hf | hf
      · simp [hf]
      · simp [hf]
      · rcases hmem hy (.failed2 f e) g hf with h1 | h1
        · simp only [rtok, List.mem_singleton] at h1
          subst h1
          exact .inr (.inl ⟨e, rfl⟩)
        · exact .inl (.inr (.inr (.inl h1)))
      · simp [hf]
      · exact .inl (.inr (.inr (.inr (.inr hf))))
    · intro f e he; cases he
    · intro he; cases he
  · next f e hy =>
    cases hs
    have hg : E.read (path E f) = .error e := h.rOK _ (List.mem_of_getElem? hy)
    have e1 := hlen hy .idle
    simp only [rtok, List.length_nil] at e1
    refine h.rset (x := .idle) hy rfl rfl rfl rfl h.nocrash (le_fail hg) ?_ trivial (fun f hf => .inl hf) ?_ ?_ ?_ ?_ ?_
    · intro f' e' he'
      simp only [write]
      split
      · next hf =>
        subst hf
        rw [hg] at he'; cases he'
        have := h.memOK _ _ hg
        exact ⟨this.1, this.2.1, .inr rfl⟩
      · exact h.memOK f' e' he'
    · simp only [live, write, List.length_append] at hl ⊢; omega
    · simp only [live, write, List.length_append] at hl ⊢; omega
    · intro g hf
      left
      rw [mem_live] at hf ⊢
      simp only [write]
      rcases hf with hf | hf | hf | hf | hf
      · simp [hf]
      · simp [hf]
      · rcases hmem hy .idle g hf with h1 | h1
        · cases h1
        · exact .inr (.inr (.inl h1))
      · simp [hf]
      · exact .inr (.inr (.inr (.inr hf)))
    · intro f' e' he'
      cases he'
      have := h.memOK _ _ hg
      rw [holds_error hg]
      simp only [write]
      exact ⟨by simpa using this.1, by simp, by simpa using this.2.1⟩
    · intro he; cases he
  · next f hy =>
    have hg : HasC E s.mem f := h.rOK _ (List.mem_of_getElem? hy)
    split at hs
    · cases hs
      have e1 := hlen hy .idle
      simp only [rtok, List.length_nil, List.length_cons] at e1
      refine h.rset (x := .idle) hy rfl rfl rfl rfl h.nocrash (Le.refl _) h.memOK trivial ?_ ?_ ?_ ?_ ?_ ?_
      · intro g hg'
        rcases List.mem_append.1 hg' with h1 | h1
        · exact .inl h1
        · rw [List.mem_singleton.1 h1]; exact .inr hg
      · simp only [live, List.length_append, List.length_cons, List.length_nil] at hl ⊢; omega
      · simp only [live, List.length_append, List.length_cons, List.length_nil] at hl ⊢; omega
      · intro g hf
        left
        rw [mem_live] at hf ⊢
        rcases hf with hf | hf | hf | hf | hf
        · simp [hf]
        · simp [hf]
        · rcases hmem hy .idle g hf with h1 | h1
          · simp only [rtok, List.mem_singleton] at h1
            subst h1
            exact .inr (.inr (.inr (.inl (by simp))))
          · exact .inr (.inr (.inl h1))
        · simp [hf]
        · exact .inr (.inr (.inr (.inr hf)))
      · intro f e he; cases he
      · intro he; cases he
    · cases hs
  · cases hs

theorem Inv.parser {s s' : State σ} (h : Inv E s) {i : Nat} {b : Bool} (hs : stepParser E s i b = some s') : Inv E s' := by
  have hl := h.wgEq
  have hlen := fun {y : PPc σ} (hy : s.parsers[i]? = some y) (x : PPc σ) => flatMap_set_length ptok hy x
  have hmem := fun {y : PPc σ} (hy : s.parsers[i]? = some y) (x : PPc σ) (f : Nat) (hb : f ∈ s.parsers.flatMap ptok) =>
    mem_flatMap_set ptok hy x hb
  simp only [stepParser] at hs
  split at hs
  · next hy =>
    split at hs
    · split at hs
      · next hd =>
        cases hs
        have e1 := hlen hy .exited
        simp only [ptok, List.length_nil] at e1
        refine h.pset (x := .exited) hy rfl rfl rfl rfl h.nocrash (Le.refl _) h.memOK trivial (fun f hf => hf) ?_ ?_ ?_ ?_
        · simp only [live, List.length_append] at hl ⊢; omega
        · simp only [live, List.length_append] at hl ⊢; omega
        · intro f hf
          left
          rw [mem_live] at hf ⊢
          rcases hf with hf | hf | hf | hf | hf
          · simp [hf]
          · simp [hf]
          · exact .inr (.inr (.inl hf))
          · simp [hf]
          · rcases hmem hy .exited f hf with h1 | h1
            · cases h1
            · exact .inr (.inr (.inr (.inr h1)))
        · intro _; exact hd
      · cases hs
    · split at hs
      · cases hs
      · next f q hq =>
        cases hs
        have hc : HasC E s.mem f := h.qOK f (by rw [hq]; simp)
        have e1 := hlen hy (.parsing f)
        simp only [ptok, List.length_nil, List.length_cons] at e1
        refine h.pset (x := .parsing f) hy rfl rfl rfl rfl h.nocrash (Le.refl _) h.memOK hc
          (fun g hg => by rw [hq]; exact List.mem_cons_of_mem _ hg) ?_ ?_ ?_ ?_
        · simp only [live, hq, List.length_append, List.length_cons] at hl ⊢; omega
        · simp only [live, hq, List.length_append, List.length_cons] at hl ⊢; omega
        · intro g hf
          left
          rw [mem_live] at hf ⊢
          rw [hq] at hf
          rcases hf with hf | hf | hf | hf | hf
          · simp [hf]
          · simp [hf]
          · exact .inr (.inr (.inl hf))
          · rcases List.mem_cons.1 hf with hf | hf
            · right; right; right; right
              subst hf
              exact List.mem_flatMap.2 ⟨_, mem_set_self hy (.parsing g), by simp [ptok]⟩
            · exact .inr (.inr (.inr (.inl hf)))
          · rcases hmem hy (.parsing f) g hf with h1 | h1
            · cases h1
            · exact .inr (.inr (.inr (.inr h1)))
        · intro he; cases he
  · next f hy =>
    cases hs
    obtain ⟨c, hc1, hc2⟩ : HasC E s.mem f := h.pOK _ (List.mem_of_getElem? hy)
    have e1 := hlen hy (.parsed f (E.parse (path E f) (s.mem f).content).1 (E.parse (path E f) (s.mem f).content).2)
    simp only [ptok, List.length_cons, List.length_nil] at e1
    refine h.pset (x := .parsed f _ _) hy rfl rfl rfl rfl h.nocrash (Le.refl _) h.memOK ?_ (fun f hf => hf) ?_ ?_ ?_ ?_
    · exact ⟨c, hc1, hc2, by rw [hc2], by rw [hc2]⟩
    · simp only [live, List.length_append] at hl ⊢; omega
    · simp only [live, List.length_append] at hl ⊢; omega
    · intro g hf
      left
      rw [mem_live] at hf ⊢
      rcases hf with hf | hf | hf | hf | hf
      · simp [hf]
      · simp [hf]
      · exact .inr (.inr (.inl hf))
      · simp [hf]
      · rcases hmem hy (.parsed f (E.parse (path E f) (s.mem f).content).1 (E.parse (path E f) (s.mem f).content).2) g hf with h1 | h1
        · simp only [ptok, List.mem_singleton] at h1
          subst h1
          exact .inr (.inr (.inr (.inr (List.mem_flatMap.2 ⟨_, mem_set_self hy _, by simp [ptok]⟩))))
        · exact .inr (.inr (.inr (.inr h1)))
    · intro he; cases he
  · next f syn err hy =>
    cases hs
    obtain ⟨c, hc1, hc2, hc3, hc4⟩ := h.pOK _ (List.mem_of_getElem? hy)
    have e1 := hlen hy (.parsed2 f syn)
    simp only [ptok, List.length_cons, List.length_nil] at e1
    refine h.pset (x := .parsed2 f syn) hy rfl rfl rfl rfl h.nocrash (by rw [hc4]; exact le_err hc1) (memOK_keep h (by rfl) hc1 _) ?_ (fun f hf => hf) ?_ ?_ ?_ ?_
    · exact ⟨c, hc1, by simpa [write] using hc2, hc3, by simpa [write] using hc4⟩
    · simp only [live, write, List.length_append] at hl ⊢; omega
    · simp only [live, write, List.length_append] at hl ⊢; omega
    · intro g hf
      left
      rw [mem_live] at hf ⊢
      simp only [write]
      rcases hf with hf | hf | hf | hf | hf
      · simp [hf]
      · simp [hf]
      · exact .inr (.inr (.inl hf))
      · simp [hf]
      · rcases hmem hy (.parsed2 f syn) g hf with h1 | h1
        · simp only [ptok, List.mem_singleton] at h1
          subst h1
          exact .inr (.inr (.inr (.inr (List.mem_flatMap.2 ⟨_, mem_set_self hy _, by simp [ptok]⟩))))
        · exact .inr (.inr (.inr (.inr h1)))
    · intro he; cases he
  · next f syn hy =>
    cases hs
    obtain ⟨c, hc1, hc2, hc3, hc4⟩ := h.pOK _ (List.mem_of_getElem? hy)
    have e1 := hlen hy (.fin f)
    simp only [ptok, List.length_cons, List.length_nil] at e1
    refine h.pset (x := .fin f) hy rfl rfl rfl rfl h.nocrash (by rw [hc3]; exact le_syn hc1) (memOK_keep h (by rfl) hc1 _) ?_ (fun f hf => hf) ?_ ?_ ?_ ?_
    · exact ⟨c, hc1, by simpa [write] using hc2, by simpa [write] using hc3, by simpa [write] using hc4⟩
    · simp only [live, write, List.length_append] at hl ⊢; omega
    · simp only [live, write, List.length_append] at hl ⊢; omega
    · intro g hf
      left
      rw [mem_live] at hf ⊢
      simp only [write]
      rcases hf with hf | hf | hf | hf | hf
      · simp [hf]
      · simp [hf]
      · exact .inr (.inr (.inl hf))
      · simp [hf]
      · rcases hmem hy (.fin f) g hf with h1 | h1
        · simp only [ptok, List.mem_singleton] at h1
          subst h1
          exact .inr (.inr (.inr (.inr (List.mem_flatMap.2 ⟨_, mem_set_self hy _, by simp [ptok]⟩))))
        · exact .inr (.inr (.inr (.inr h1)))
    · intro he; cases he
  · next f hy =>
    cases hs
    obtain ⟨c, hc1, hc2, hc3, hc4⟩ := h.pOK _ (List.mem_of_getElem? hy)
    have e1 := hlen hy .idle
    simp only [ptok, List.length_cons, List.length_nil] at e1
    have hpos : s.wg ≠ 0 := by simp only [live, List.length_append] at hl; omega
    simp only [wgDone, if_neg hpos]
    refine h.pset (x := .idle) hy rfl rfl rfl rfl h.nocrash (Le.refl _) h.memOK trivial (fun f hf => hf) ?_ ?_ ?_ ?_
    · simp only [live, List.length_append] at hl ⊢; omega
    · simp only [live, List.length_append] at hl ⊢; omega
    · intro g hf
      rw [mem_live] at hf ⊢
      rcases hf with hf | hf | hf | hf | hf
      · simp [hf]
      · simp [hf]
      · exact .inl (.inr (.inr (.inl hf)))
      · simp [hf]
      · rcases hmem hy .idle g hf with h1 | h1
        · simp only [ptok, List.mem_singleton] at h1
          subst h1
          right
          exact (holds_ok hc1).2 ⟨hc2, hc4, hc3⟩
        · exact .inl (.inr (.inr (.inr (.inr h1))))
    · intro he; cases he
  · cases hs

theorem Inv.step {s s' : State σ} (h : Inv E s) {a : Actor} (hs : step E s a = some s') : Inv E s' := by
  cases a with
  | main => exact h.main hs
  | reader i b => exact h.reader hs
  | parser i b => exact h.parser hs

theorem Reach.inv {s : State σ} (h : Reach E s) : Inv E s := by
  induction h with
  | init => exact Inv.init
  | step _ hs ih => exact ih.step hs

end Verif.Instrument.Load
