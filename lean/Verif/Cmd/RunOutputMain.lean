/-
**C84**: what a test prints gets to the page of the test explorer.
-/
import Verif.Cmd.RunOutputSpec

namespace Verif.Cmd.RunOutput
open Verif.Cmd.RunOutput.Spec

/-! ### Lines -/

theorem nextLine_none {s : Str} : nextLine s = none ↔ '\n' ∉ s := by
  induction s with
  | nil => simp [nextLine]
  | cons c s ih =>
    rw [nextLine]
    by_cases h : c = '\n'
    · rw [if_pos h]; simp [h]
    · rw [if_neg h, Option.map_eq_none_iff, ih]
      simp [Ne.symm h]

theorem nextLine_some {s l r : Str} (h : nextLine s = some (l, r)) : s = l ++ '\n' :: r ∧ '\n' ∉ l := by
  induction s generalizing l with
  | nil => cases h
  | cons c s ih =>
    rw [nextLine] at h
    by_cases hc : c = '\n'
    · rw [if_pos hc] at h
      cases h
      exact ⟨by rw [hc]; rfl, by simp⟩
    · rw [if_neg hc] at h
      obtain ⟨⟨l', r'⟩, hp, e⟩ := Option.map_eq_some_iff.mp h
      cases e
      obtain ⟨e, hl⟩ := ih hp
      exact ⟨by rw [e]; rfl, by simp [Ne.symm hc, hl]⟩

theorem unlines_cons (l : Str) (ls : List Str) : unlines (l :: ls) = l ++ '\n' :: unlines ls := by simp [unlines]

theorem unlines_append (a b : List Str) : unlines (a ++ b) = unlines a ++ unlines b := by simp [unlines]

theorem unlines_snoc (a : List Str) (l : Str) : unlines (a ++ [l]) = unlines a ++ (l ++ ['\n']) := by
  rw [unlines_append]; simp [unlines]

/-- Two lines at the start of the same text are the same. -/
theorem line_inj {a b x y : Str} (ha : '\n' ∉ a) (hb : '\n' ∉ b) (h : a ++ '\n' :: x = b ++ '\n' :: y) : a = b ∧ x = y := by
  induction a generalizing b with
  | nil =>
    cases b with
    | nil => exact ⟨rfl, (List.cons.inj h).2⟩
    | cons d b =>
      have : '\n' = d := (List.cons.inj h).1
      exact absurd (by rw [this]; simp) hb
  | cons c a ih =>
    cases b with
    | nil =>
      have : c = '\n' := (List.cons.inj h).1
      exact absurd (by rw [this]; simp) ha
    | cons d b =>
      obtain ⟨e1, e2⟩ := List.cons.inj h
      obtain ⟨e3, e4⟩ := ih (fun h => ha (List.mem_cons_of_mem _ h)) (fun h => hb (List.mem_cons_of_mem _ h)) e2
      exact ⟨by rw [e1, e3], e4⟩

/-- Lines taken from the start of a text are its first lines. -/
theorem lines_split {raw ls : List Str} {m tail : Str} (h : Lines (unlines raw ++ m) ls tail) (hr : ∀ l ∈ raw, '\n' ∉ l) :
    ∃ ls', ls = raw ++ ls' ∧ Lines m ls' tail := by
  induction raw generalizing ls with
  | nil => exact ⟨ls, rfl, by simpa [unlines] using h⟩
  | cons l raw ih =>
    obtain ⟨e, hl, ht⟩ := h
    rw [unlines_cons, List.append_assoc, List.cons_append] at e
    cases ls with
    | nil =>
      rw [show unlines [] = [] from rfl, List.nil_append] at e
      exact absurd (by rw [← e]; simp) ht
    | cons k ls =>
      rw [unlines_cons, List.append_assoc, List.cons_append] at e
      obtain ⟨e1, e2⟩ := line_inj (hr l List.mem_cons_self) (hl k List.mem_cons_self) e
      obtain ⟨ls', e3, h'⟩ := ih ⟨e2, fun x hx => hl x (List.mem_cons_of_mem _ hx), ht⟩ (fun x hx => hr x (List.mem_cons_of_mem _ hx))
      exact ⟨ls', by rw [e1, e3]; rfl, h'⟩

theorem lines_first {l r : Str} {ls : List Str} {tail : Str} (h : Lines (l ++ '\n' :: r) ls tail) (hl : '\n' ∉ l) : l ∈ ls := by
  have e : l ++ '\n' :: r = unlines [l] ++ r := by rw [unlines_cons]; simp [unlines]
  rw [e] at h
  obtain ⟨ls', e', _⟩ := lines_split h (by simpa using hl)
  rw [e']; simp

theorem lines_none {l : Str} {ls : List Str} {tail : Str} (h : Lines l ls tail) (hl : '\n' ∉ l) : ls = [] ∧ tail = l := by
  obtain ⟨e, _, _⟩ := h
  cases ls with
  | nil => exact ⟨rfl, by rw [e]; rfl⟩
  | cons k ls =>
    rw [unlines_cons] at e
    exact absurd (by rw [e]; simp) hl

/-- What is left begins with (a part of) a line. -/
theorem lines_part {b r : Str} {ls : List Str} {tail : Str} (h : Lines (b ++ r) ls tail) (hb : '\n' ∉ b) :
    (∃ k, k ∈ ls ∧ b <+: k) ∨ (ls = [] ∧ b <+: tail) := by
  obtain ⟨e, hl, ht⟩ := h
  cases ls with
  | nil => exact .inr ⟨rfl, ⟨r, by rw [e]; rfl⟩⟩
  | cons k ls =>
    left
    refine ⟨k, List.mem_cons_self, ?_⟩
    rw [unlines_cons, List.append_assoc] at e
    rcases List.append_eq_append_iff.mp e with ⟨x, e1, _⟩ | ⟨x, e1, e2⟩
    · exact ⟨x, e1.symm⟩
    · cases x with
      | nil => exact ⟨[], by simpa using e1⟩
      | cons y x =>
        simp only [List.cons_append, List.cons.injEq] at e2
        exact absurd (by rw [e1, ← e2.1]; simp) hb

/-! ### The invariant -/

/-- A stream on the way: the lines given out, what is in the buffer, what is still to be written. -/
inductive At (c : Cfg) (text : Str) (raw : List Str) : Stream → Prop
  | on (buf rest : Str) : text = unlines raw ++ (buf ++ rest) → buf.length ≤ c.max → At c text raw ⟨rest, buf, .on⟩
  | full (buf rest : Str) : text = unlines raw ++ (buf ++ rest) → buf.length ≤ c.max → '\n' ∉ buf → c.max ≤ buf.length →
      At c text raw ⟨rest, buf, .full⟩
  | badLine (l buf rest : Str) : text = unlines raw ++ (l ++ '\n' :: (buf ++ rest)) → '\n' ∉ l → c.accept (dropCR l) = false →
      l.length + 1 + buf.length ≤ c.max →
      At c text raw ⟨rest, buf, .bad⟩
  | badLast (l buf rest : Str) : text = unlines raw ++ l → '\n' ∉ l → c.accept (dropCR l) = false → l ≠ [] →
      l.length < c.max → At c text raw ⟨rest, buf, .bad⟩
  | eof (rest : Str) : text = unlines raw → c.closes = true → At c text raw ⟨rest, [], .eof⟩
  | last (raw' : List Str) (l rest : Str) : raw = raw' ++ [l] → text = unlines raw' ++ l → '\n' ∉ l → l ≠ [] → c.closes = true →
      At c text raw ⟨rest, [], .eof⟩

theorem at_on {c : Cfg} {text : Str} {raw : List Str} {x : Stream} (h : At c text raw x) (hst : x.st = .on) :
    text = unlines raw ++ (x.buf ++ x.rest) ∧ x.buf.length ≤ c.max := by
  cases h with
  | on buf rest e hl => exact ⟨e, hl⟩
  | _ => cases hst

theorem at_read {c : Cfg} {text : Str} {raw : List Str} {x y : Stream} {k : Nat} (h : At c text raw x)
    (hr : x.read c.max k = some y) : At c text raw y := by
  rw [Stream.read] at hr
  split at hr
  case isFalse => cases hr
  case isTrue hc =>
    obtain ⟨hst, hn, hk, hle, hb⟩ := hc
    cases hr
    cases h with
    | on buf rest e hl =>
      refine .on _ _ ?_ ?_
      · rw [e]; simp
      · simp only [List.length_append, List.length_take] at *; omega
    | _ => cases hst

theorem at_full {c : Cfg} {text : Str} {raw : List Str} {x y : Stream} (h : At c text raw x)
    (hr : x.overflow c.max = some y) : At c text raw y := by
  rw [Stream.overflow] at hr
  split at hr
  case isFalse => cases hr
  case isTrue hc =>
    obtain ⟨hst, hn, hb⟩ := hc
    cases hr
    cases h with
    | on buf rest e hl => exact .full _ _ e hl (nextLine_none.mp hn) hb
    | _ => cases hst

theorem at_line {c : Cfg} {text : Str} {raw : List Str} {x : Stream} {l r : Str} (h : At c text raw x) (hst : x.st = .on)
    (hn : nextLine x.buf = some (l, r)) : At c text (raw ++ [l]) { x with buf := r } ∧ '\n' ∉ l := by
  cases h with
  | on buf rest e hl =>
    obtain ⟨e', hl'⟩ := nextLine_some hn
    refine ⟨.on _ _ ?_ ?_, hl'⟩
    · rw [e, unlines_snoc]
      simp only at e'
      rw [e']; simp
    · simp only at e'
      rw [e'] at hl
      simp at hl ⊢; omega
  | _ => cases hst

theorem line_short {c : Cfg} {text : Str} {raw : List Str} {x : Stream} {l r : Str} (h : At c text raw x) (hst : x.st = .on)
    (hn : nextLine x.buf = some (l, r)) : l.length < c.max := by
  have h1 := (at_on h hst).2
  rw [(nextLine_some hn).1] at h1
  simp at h1; omega

theorem snoc_lt {n : Nat} {a : List Str} {l : Str} (h : ∀ x ∈ a, x.length < n) (hl : l.length < n) : ∀ x ∈ a ++ [l], x.length < n := by
  intro x hx
  rcases List.mem_append.mp hx with hx | hx
  · exact h x hx
  · rw [List.mem_singleton.mp hx]; exact hl

structure Inv (c : Cfg) (out err : Str) (s : St) : Prop where
  outAt : ∃ raw, outs s.events = raw.map dropCR ∧ (∀ l ∈ raw, '\n' ∉ l) ∧ (∀ l ∈ raw, l.length < c.max) ∧ At c out raw s.out
  errAt : ∃ raw rest, errs s.events = raw.map dropCR ∧ (∀ l ∈ raw, '\n' ∉ l) ∧
    At ⟨c.max, false, false, fun _ => true⟩ err raw { s.err with rest := rest } ∧ (s.err.st = .on → rest = s.err.rest)
  exit : s.exited.isSome = true → s.out.rest = [] ∧ s.err.rest = []
  done : .done ∈ s.events ↔ s.ended = true
  ended : s.ended = true → s.exited.isSome = true
  waits : c.waits = true → s.ended = true → s.out.st ≠ .on
  eof : s.out.st = .eof → s.out.rest = []

theorem inv_start (c : Cfg) (out err : Str) : Inv c out err (start out err) where
  outAt := ⟨[], rfl, by simp, by simp, .on _ _ rfl (Nat.zero_le _)⟩
  errAt := ⟨[], err, rfl, by simp, .on _ _ rfl (Nat.zero_le _), fun _ => rfl⟩
  exit := by intro h; cases h
  done := by simp [start]
  ended := by intro h; cases h
  waits := by intro _ h; cases h
  eof := by intro h; cases h

theorem read_on {max : Nat} {x y : Stream} {k : Nat} (h : x.read max k = some y) :
    x.st = .on ∧ y.st = .on ∧ (x.rest = [] → False) := by
  rw [Stream.read] at h
  split at h
  case isFalse => cases h
  case isTrue hc =>
    cases h
    refine ⟨hc.1, hc.1, fun e => ?_⟩
    have := hc.2.2.1
    have h2 := hc.2.2.2.1
    rw [e] at h2
    simp at h2
    omega

theorem full_on {max : Nat} {x y : Stream} (h : x.overflow max = some y) : x.st = .on ∧ y.st = .full ∧ y.rest = x.rest := by
  rw [Stream.overflow] at h
  split at h
  case isFalse => cases h
  case isTrue hc => cases h; exact ⟨hc.1, rfl, rfl⟩

theorem outs_out (es : List Ev) (l : Str) : outs (es ++ [.out l]) = outs es ++ [l] ∧ errs (es ++ [.out l]) = errs es := by
  simp [outs, errs]

theorem outs_err (es : List Ev) (l : Str) : outs (es ++ [.err l]) = outs es ∧ errs (es ++ [.err l]) = errs es ++ [l] := by
  simp [outs, errs]

theorem outs_bad (es : List Ev) : outs (es ++ [.bad]) = outs es ∧ errs (es ++ [.bad]) = errs es := by
  simp [outs, errs]

theorem outs_end (es : List Ev) (f : Bool) :
    outs (es ++ (if f then [.fail] else []) ++ [.done]) = outs es ∧ errs (es ++ (if f then [.fail] else []) ++ [.done]) = errs es := by
  cases f <;> simp [outs, errs]

theorem inv_step {c : Cfg} {out err : Str} {s s' : St} {a : Label} (hi : Inv c out err s) (h : step c s a = some s') :
    Inv c out err s' := by
  obtain ⟨⟨raw, ho, hn, hsz, hat⟩, ⟨raw2, rest2, he, hn2, hat2, hr2⟩, hx, hd, hen, hw, heof⟩ := hi
  cases a with
  | readOut k =>
    obtain ⟨x, h1, rfl⟩ := Option.map_eq_some_iff.mp h
    obtain ⟨on1, on2, hne⟩ := read_on h1
    refine ⟨⟨raw, ho, hn, hsz, at_read hat h1⟩, ⟨raw2, rest2, he, hn2, hat2, hr2⟩, ?_, hd, hen, ?_, ?_⟩
    · intro hs; exact absurd (hx hs).1 hne
    · intro h1 h2; exact absurd on1 (hw h1 h2)
    · intro h; rw [show ({ s with out := x } : St).out.st = x.st from rfl, on2] at h; cases h
  | lineOut =>
    rw [step] at h
    split at h
    case isFalse => cases h
    case isTrue hst =>
      cases hl : nextLine s.out.buf with
      | none => rw [hl] at h; cases h
      | some p =>
        obtain ⟨l, r⟩ := p
        rw [hl] at h
        simp only at h
        obtain ⟨hat', hnl⟩ := at_line hat hst hl
        by_cases hacc : c.accept (dropCR l) = true
        · rw [if_pos hacc] at h
          cases h
          refine ⟨⟨raw ++ [l], ?_, ?_, ?_, hat'⟩, ⟨raw2, rest2, ?_, hn2, hat2, hr2⟩, hx, ?_, hen, hw, heof⟩
          · rw [(outs_out _ _).1, ho]; simp
          · intro x hx
            rcases List.mem_append.mp hx with hx | hx
            · exact hn x hx
            · rw [List.mem_singleton.mp hx]; exact hnl
          · exact snoc_lt hsz (line_short hat hst hl)
          · rw [(outs_out _ _).2, he]
          · simp [hd]
        · rw [if_neg hacc] at h
          cases h
          refine ⟨⟨raw, ?_, hn, hsz, ?_⟩, ⟨raw2, rest2, ?_, hn2, hat2, hr2⟩, hx, ?_, hen, ?_, ?_⟩
          · rw [(outs_bad _).1, ho]
          · obtain ⟨e', hl'⟩ := nextLine_some hl
            exact .badLine l r s.out.rest (by rw [(at_on hat hst).1, e']; simp) hl' (by simpa using hacc)
              (by have := (at_on hat hst).2; rw [e'] at this; simp at this; omega)
          · rw [(outs_bad _).2, he]
          · simp [hd]
          · intro _ _ h; cases h
          · intro h; cases h
  | fullOut =>
    obtain ⟨x, h1, rfl⟩ := Option.map_eq_some_iff.mp h
    obtain ⟨on1, on2, hre⟩ := full_on h1
    refine ⟨⟨raw, ho, hn, hsz, at_full hat h1⟩, ⟨raw2, rest2, he, hn2, hat2, hr2⟩, ?_, hd, hen, ?_, ?_⟩
    · intro hs; exact ⟨by rw [hre]; exact (hx hs).1, (hx hs).2⟩
    · intro h1 h2; exact absurd on1 (hw h1 h2)
    · intro h; rw [show ({ s with out := x } : St).out.st = x.st from rfl, on2] at h; cases h
  | eofOut =>
    rw [step] at h
    split at h
    case isFalse => cases h
    case isTrue hc =>
      obtain ⟨hst, hnl, hlt, hcl, hex⟩ := hc
      have hrest := (hx hex).1
      by_cases hb : s.out.buf = []
      · rw [if_pos hb] at h
        cases h
        refine ⟨⟨raw, ho, hn, hsz, ?_⟩, ⟨raw2, rest2, he, hn2, hat2, hr2⟩, hx, hd, hen, ?_, fun _ => hrest⟩
        · show At c out raw ⟨s.out.rest, s.out.buf, .eof⟩
          have e := (at_on hat hst).1
          rw [hb, hrest] at e
          rw [hb]
          exact .eof _ (by simpa using e) hcl
        · intro _ _ h; cases h
      · rw [if_neg hb] at h
        by_cases hacc : c.accept (dropCR s.out.buf) = true
        · rw [if_pos hacc] at h
          cases h
          refine ⟨⟨raw ++ [s.out.buf], ?_, ?_, snoc_lt hsz hlt, ?_⟩, ⟨raw2, rest2, ?_, hn2, hat2, hr2⟩, hx, ?_, hen, ?_, fun _ => hrest⟩
          · rw [(outs_out _ _).1, ho]; simp
          · intro x hx
            rcases List.mem_append.mp hx with hx | hx
            · exact hn x hx
            · rw [List.mem_singleton.mp hx]; exact nextLine_none.mp hnl
          · have e := (at_on hat hst).1
            rw [hrest] at e
            exact .last raw s.out.buf _ rfl (by simpa using e) (nextLine_none.mp hnl) hb hcl
          · rw [(outs_out _ _).2, he]
          · simp [hd]
          · intro _ _ h; cases h
        · rw [if_neg hacc] at h
          cases h
          refine ⟨⟨raw, ?_, hn, hsz, ?_⟩, ⟨raw2, rest2, ?_, hn2, hat2, hr2⟩, hx, ?_, hen, ?_, ?_⟩
          · rw [(outs_bad _).1, ho]
          · have e := (at_on hat hst).1
            rw [hrest] at e
            exact .badLast s.out.buf _ _ (by simpa using e) (nextLine_none.mp hnl) (by simpa using hacc) hb hlt
          · rw [(outs_bad _).2, he]
          · simp [hd]
          · intro _ _ h; cases h
          · intro h; cases h
  | readErr k =>
    obtain ⟨x, h1, rfl⟩ := Option.map_eq_some_iff.mp h
    obtain ⟨on1, on2, hne⟩ := read_on h1
    have e2 := hr2 on1
    subst e2
    refine ⟨⟨raw, ho, hn, hsz, hat⟩, ⟨raw2, x.rest, he, hn2, at_read hat2 h1, fun _ => rfl⟩, ?_, hd, hen, hw, heof⟩
    intro hs; exact absurd (hx hs).2 hne
  | lineErr =>
    rw [step] at h
    split at h
    case isFalse => cases h
    case isTrue hst =>
      cases hl : nextLine s.err.buf with
      | none => rw [hl] at h; cases h
      | some p =>
        obtain ⟨l, r⟩ := p
        rw [hl] at h
        cases h
        have e2 := hr2 hst
        subst e2
        obtain ⟨hat', hnl⟩ := at_line hat2 hst hl
        refine ⟨⟨raw, ?_, hn, hsz, hat⟩, ⟨raw2 ++ [l], s.err.rest, ?_, ?_, hat', fun _ => rfl⟩, hx, ?_, hen, hw, heof⟩
        · rw [(outs_err _ _).1, ho]
        · rw [(outs_err _ _).2, he]; simp
        · intro x hx
          rcases List.mem_append.mp hx with hx | hx
          · exact hn2 x hx
          · rw [List.mem_singleton.mp hx]; exact hnl
        · simp [hd]
  | fullErr =>
    obtain ⟨x, h1, rfl⟩ := Option.map_eq_some_iff.mp h
    obtain ⟨on1, on2, hre⟩ := full_on h1
    have e2 := hr2 on1
    subst e2
    refine ⟨⟨raw, ho, hn, hsz, hat⟩, ⟨raw2, x.rest, he, hn2, at_full hat2 h1, fun _ => rfl⟩, ?_, hd, hen, hw, heof⟩
    intro hs; exact ⟨(hx hs).1, by rw [hre]; exact (hx hs).2⟩
  | breakErr =>
    rw [step] at h
    split at h
    case isFalse => cases h
    case isTrue hc =>
      cases h
      refine ⟨⟨raw, ho, hn, hsz, hat⟩, ⟨raw2, rest2, he, hn2, hat2, fun h => absurd h hc.1⟩, fun hs => ⟨(hx hs).1, rfl⟩, hd, hen, hw, heof⟩
  | exit f =>
    rw [step] at h
    split at h
    case isFalse => cases h
    case isTrue hc =>
      cases h
      exact ⟨⟨raw, ho, hn, hsz, hat⟩, ⟨raw2, rest2, he, hn2, hat2, hr2⟩, fun _ => hc.2, hd, fun _ => rfl, hw, heof⟩
  | finish =>
    rw [step] at h
    split at h
    case isFalse => cases h
    case isTrue hc =>
      cases hx' : s.exited with
      | none => rw [hx'] at h; cases h
      | some f =>
        rw [hx'] at h
        cases h
        refine ⟨⟨raw, ?_, hn, hsz, hat⟩, ⟨raw2, rest2, ?_, hn2, hat2, hr2⟩, fun _ => hx (by rw [hx']; rfl), ?_, fun _ => rfl, fun h _ => hc.2 h, heof⟩
        · rw [(outs_end _ _).1, ho]
        · rw [(outs_end _ _).2, he]
        · simp

theorem inv_run {c : Cfg} {out err : Str} {s s' : St} {l : List Label} (hi : Inv c out err s) (h : run c s l = some s') :
    Inv c out err s' := by
  induction l generalizing s with
  | nil => cases h; exact hi
  | cons a l ih =>
    obtain ⟨t, h1, h2⟩ := Option.bind_eq_some_iff.mp h
    exact ih (inv_step hi h1) h2

theorem inv_reached {c : Cfg} {out err : Str} {s : St} (h : Reached c out err s) : Inv c out err s := by
  obtain ⟨l, hl⟩ := h
  exact inv_run (inv_start c out err) hl

/-! ### What the page gets -/

theorem at_prefix {c : Cfg} {text tail : Str} {raw ls : List Str} {x : Stream} (h : At c text raw x) (hr : ∀ l ∈ raw, '\n' ∉ l)
    (hl : Lines text ls tail) : raw <+: ls ++ last tail ∧ (c.closes = false → raw <+: ls) := by
  have pre : ∀ m, text = unlines raw ++ m → raw <+: ls := by
    intro m e
    rw [e] at hl
    obtain ⟨ls', e', _⟩ := lines_split hl hr
    exact ⟨ls', e'.symm⟩
  have both : ∀ m, text = unlines raw ++ m → raw <+: ls ++ last tail ∧ (c.closes = false → raw <+: ls) := fun m e =>
    ⟨(pre m e).trans (List.prefix_append ..), fun _ => pre m e⟩
  cases h with
  | on buf rest e _ => exact both _ e
  | full buf rest e _ _ _ => exact both _ e
  | badLine l buf rest e _ _ _ => exact both _ e
  | badLast l buf rest e _ _ _ _ => exact both _ e
  | eof rest e _ => exact both [] (by rw [e]; simp)
  | last raw' l rest e1 e hn hne hc =>
    rw [e] at hl
    have hr' : ∀ x ∈ raw', '\n' ∉ x := fun x hx => hr x (by rw [e1]; exact List.mem_append_left _ hx)
    obtain ⟨ls', e', h'⟩ := lines_split hl hr'
    obtain ⟨e3, e4⟩ := lines_none h' hn
    refine ⟨?_, fun h => by rw [hc] at h; cases h⟩
    rw [e1, e', e3, e4, List.append_nil, Spec.last, if_neg hne]
    exact List.prefix_refl _

theorem prefix_map {α β : Type} {a b : List α} (f : α → β) (h : a <+: b) : a.map f <+: b.map f := by
  obtain ⟨t, rfl⟩ := h
  exact ⟨t.map f, by simp⟩

/-- **C84** (nothing but the lines, in order) Whatever the scheduling, what the page has got of the output is a first part of its lines:
    none is lost in between, doubled or out of order; likewise for the error output, of which it never gets a last line that is not
    ended. -/
theorem C84_lines {c : Cfg} {out err : Str} {s : St} (h : Reached c out err s) {ls es : List Str} {tail etail : Str}
    (hl : Lines out ls tail) (he : Lines err es etail) :
    outs s.events <+: (ls ++ last tail).map dropCR ∧ errs s.events <+: es.map dropCR := by
  obtain ⟨⟨raw, ho, hn, hsz, hat⟩, ⟨raw2, rest2, he2, hn2, hat2, _⟩, _⟩ := inv_reached h
  rw [ho, he2]
  exact ⟨prefix_map _ (at_prefix hat hn hl).1, prefix_map _ ((at_prefix hat2 hn2 he).2 rfl)⟩

/-- How far a run is from its end. -/
def todo (x : Stream) : Nat := 3 * x.rest.length + 2 * x.buf.length + (if x.st = .on then 1 else 0)

def measure (s : St) : Nat := todo s.out + todo s.err + (if s.exited = none then 1 else 0) + (if s.ended = false then 1 else 0)

theorem todo_read {max k : Nat} {x y : Stream} (h : x.read max k = some y) : todo y < todo x := by
  rw [Stream.read] at h
  split at h
  case isFalse => cases h
  case isTrue hc =>
    cases h
    obtain ⟨_, _, h1, h2, _⟩ := hc
    simp only [todo, List.length_drop, List.length_append, List.length_take]
    omega

theorem todo_full {max : Nat} {x y : Stream} (h : x.overflow max = some y) : todo y < todo x := by
  rw [Stream.overflow] at h
  split at h
  case isFalse => cases h
  case isTrue hc =>
    cases h
    simp [todo, hc.1]

theorem line_lt {b l r : Str} (h : nextLine b = some (l, r)) : r.length < b.length := by
  rw [(nextLine_some h).1]; simp; omega

theorem measure_step {c : Cfg} {s s' : St} {a : Label} (h : step c s a = some s') : measure s' < measure s := by
  cases a with
  | readOut k =>
    obtain ⟨x, h1, rfl⟩ := Option.map_eq_some_iff.mp h
    have := todo_read h1
    simp only [measure]; omega
  | readErr k =>
    obtain ⟨x, h1, rfl⟩ := Option.map_eq_some_iff.mp h
    have := todo_read h1
    simp only [measure]; omega
  | fullOut =>
    obtain ⟨x, h1, rfl⟩ := Option.map_eq_some_iff.mp h
    have := todo_full h1
    simp only [measure]; omega
  | fullErr =>
    obtain ⟨x, h1, rfl⟩ := Option.map_eq_some_iff.mp h
    have := todo_full h1
    simp only [measure]; omega
  | lineOut =>
    rw [step] at h
    split at h
    case isFalse => cases h
    case isTrue hst =>
      cases hl : nextLine s.out.buf with
      | none => rw [hl] at h; cases h
      | some p =>
        obtain ⟨l, r⟩ := p
        have := line_lt hl
        rw [hl] at h
        simp only at h
        split at h
        · cases h; simp only [measure, todo, hst]; simp; omega
        · cases h; simp only [measure, todo, hst]; simp; omega
  | eofOut =>
    rw [step] at h
    split at h
    case isFalse => cases h
    case isTrue hc =>
      have hst := hc.1
      split at h
      · cases h; simp only [measure, todo, hst]; simp
      · split at h
        · cases h; simp only [measure, todo, hst]; simp; omega
        · cases h; simp only [measure, todo, hst]; simp; omega
  | lineErr =>
    rw [step] at h
    split at h
    case isFalse => cases h
    case isTrue hst =>
      cases hl : nextLine s.err.buf with
      | none => rw [hl] at h; cases h
      | some p =>
        obtain ⟨l, r⟩ := p
        have := line_lt hl
        rw [hl] at h
        cases h; simp only [measure, todo, hst]; simp; omega
  | breakErr =>
    rw [step] at h
    split at h
    case isFalse => cases h
    case isTrue hc =>
      cases h
      have : 0 < s.err.rest.length := List.length_pos_iff.mpr hc.2
      simp only [measure, todo]; simp; omega
  | exit f =>
    rw [step] at h
    split at h
    case isFalse => cases h
    case isTrue hc => cases h; simp [measure, hc.1]
  | finish =>
    rw [step] at h
    split at h
    case isFalse => cases h
    case isTrue hc =>
      cases hx : s.exited with
      | none => rw [hx] at h; cases h
      | some f => rw [hx] at h; cases h; simp [measure, hc.1, hx]

/-- **C84** (it comes to rest) No run goes on for ever: there is a bound for the number of its steps. -/
theorem C84_rests (c : Cfg) (out err : Str) : ∃ n, ∀ l s, run c (start out err) l = some s → l.length ≤ n := by
  refine ⟨measure (start out err), fun l s h => ?_⟩
  have : ∀ (l : List Label) (t s : St), run c t l = some s → l.length ≤ measure t := by
    intro l
    induction l with
    | nil => intro t s _; exact Nat.zero_le _
    | cons a l ih =>
      intro t s h
      obtain ⟨u, h1, h2⟩ := Option.bind_eq_some_iff.mp h
      have := measure_step h1
      have := ih u s h2
      simp only [List.length_cons]; omega
  exact this l _ s h

/-- A reader in its loop that can do nothing has taken all there is. -/
theorem stuck_rest {max : Nat} {x : Stream} (hst : x.st = .on) (hn : nextLine x.buf = none) (h2 : ∀ k, x.read max k = none)
    (h3 : x.overflow max = none) : x.rest = [] ∧ x.buf.length < max := by
  have hlt : x.buf.length < max := by
    by_cases h : x.buf.length < max
    · exact h
    · rw [Stream.overflow, if_pos ⟨hst, hn, by omega⟩] at h3; cases h3
  refine ⟨?_, hlt⟩
  by_cases hre : x.rest = []
  · exact hre
  · exfalso
    have h := h2 1
    have : 0 < x.rest.length := List.length_pos_iff.mpr hre
    rw [Stream.read, if_pos ⟨hst, hn, by omega, by omega, by omega⟩] at h
    cases h

/-- The buffer does not overflow on lines that are shorter than it. -/
theorem short_not_full {c : Cfg} {x : Stream} {text tail : Str} {raw ls : List Str} (hm : 0 < c.max) (hat : At c text raw x)
    (hr : ∀ l ∈ raw, '\n' ∉ l) (hl : Lines text ls tail) (short : ∀ l ∈ ls ++ last tail, l.length < c.max) : x.st ≠ .full := by
  intro hst
  cases hat with
  | full buf rest e _ hnb hge =>
    have hne : buf ≠ [] := by rintro rfl; simp only [List.length_nil] at hge; omega
    rw [e] at hl
    obtain ⟨ls', e', h'⟩ := lines_split hl hr
    rcases lines_part h' hnb with ⟨k, hk, hp⟩ | ⟨_, hp⟩
    · have := short k (by rw [e']; simp [hk])
      have := hp.length_le
      omega
    · have hte : tail ≠ [] := by
        rintro rfl
        exact hne (List.prefix_nil.mp hp)
      have := short tail (by simp [last, hte])
      have := hp.length_le
      omega
  | _ => cases hst

theorem accepted_not_bad {c : Cfg} {x : Stream} {text tail : Str} {raw ls : List Str} (hat : At c text raw x)
    (hr : ∀ l ∈ raw, '\n' ∉ l) (hl : Lines text ls tail) (acc : ∀ l ∈ ls ++ last tail, c.accept (dropCR l) = true) : x.st ≠ .bad := by
  intro hst
  cases hat with
  | badLine l buf rest e hnl hac _ =>
    rw [e] at hl
    obtain ⟨ls', e', h'⟩ := lines_split hl hr
    have := acc l (by rw [e']; simp [lines_first h' hnl])
    rw [this] at hac; cases hac
  | badLast l buf rest e hnl hac hne _ =>
    rw [e] at hl
    obtain ⟨ls', e', h'⟩ := lines_split hl hr
    obtain ⟨_, e4⟩ := lines_none h' hnl
    have := acc l (by rw [e4, last, if_neg hne]; simp)
    rw [this] at hac; cases hac
  | _ => cases hst

theorem eof_all {c : Cfg} {x : Stream} {text tail : Str} {raw ls : List Str} (hat : At c text raw x) (hst : x.st = .eof)
    (hr : ∀ l ∈ raw, '\n' ∉ l) (hl : Lines text ls tail) : raw = ls ++ last tail := by
  cases hat with
  | eof rest e _ =>
    rw [show text = unlines raw ++ [] by rw [e]; simp] at hl
    obtain ⟨ls', e', h'⟩ := lines_split hl hr
    obtain ⟨e3, e4⟩ := lines_none h' (by simp)
    rw [e', e3, e4]; simp [last]
  | last raw' l rest e1 e hn hne hc =>
    rw [e] at hl
    have hr' : ∀ x ∈ raw', '\n' ∉ x := fun x hx => hr x (by rw [e1]; exact List.mem_append_left _ hx)
    obtain ⟨ls', e', h'⟩ := lines_split hl hr'
    obtain ⟨e3, e4⟩ := lines_none h' hn
    rw [e1, e', e3, e4, List.append_nil, Spec.last, if_neg hne]
  | _ => cases hst

theorem line_none_of {c : Cfg} {s : St} (hs : step c s .lineOut = none) (hst : s.out.st = .on) : nextLine s.out.buf = none := by
  cases hl : nextLine s.out.buf with
  | none => rfl
  | some p =>
    rw [step, if_pos hst, hl] at hs
    simp only at hs
    split at hs <;> cases hs

theorem line_none_err {c : Cfg} {s : St} (hs : step c s .lineErr = none) (hst : s.err.st = .on) : nextLine s.err.buf = none := by
  cases hl : nextLine s.err.buf with
  | none => rfl
  | some p => rw [step, if_pos hst, hl] at hs; cases hs

theorem err_rest {c : Cfg} {s : St} (hs : Stuck c s) : s.err.rest = [] := by
  by_cases hst : s.err.st = .on
  · exact (stuck_rest hst (line_none_err (hs .lineErr) hst) (fun k => Option.map_eq_none_iff.mp (hs (.readErr k)))
      (Option.map_eq_none_iff.mp (hs .fullErr))).1
  · by_cases hr : s.err.rest = []
    · exact hr
    · have h := hs .breakErr
      rw [step, if_pos ⟨hst, hr⟩] at h
      cases h

theorem out_rest {c : Cfg} {s : St} (hs : Stuck c s) (hst : s.out.st = .on) :
    s.out.rest = [] ∧ s.out.buf.length < c.max ∧ nextLine s.out.buf = none :=
  have hn := line_none_of (hs .lineOut) hst
  have h := stuck_rest hst hn (fun k => Option.map_eq_none_iff.mp (hs (.readOut k))) (Option.map_eq_none_iff.mp (hs .fullOut))
  ⟨h.1, h.2, hn⟩

theorem at_open {c : Cfg} {text : Str} {raw : List Str} {x : Stream} (h : At c text raw x) (hc : c.closes = false) : x.st ≠ .eof := by
  intro hst
  cases h with
  | eof rest e h => rw [hc] at h; cases h
  | last raw' l rest e1 e hn hne h => rw [hc] at h; cases h
  | _ => cases hst

/-- **C84** (a session ends, with everything) If every line of the output is shorter than 64 KiB and is one that the session reads, then,
    however reader and program are scheduled, where nothing more can happen the end of the run has been sent, and before it every line,
    with the last one even where no newline ends it; and of the error output all lines that are ended, if they are short as well. -/
theorem C84_ends {c : Cfg} (hc : c.closes = true) (hm : 0 < c.max) {out err : Str} {s : St} (h : Reached c out err s)
    (hs : Stuck c s) {ls es : List Str} {tail etail : Str} (hl : Lines out ls tail) (he : Lines err es etail)
    (short : ∀ l ∈ ls ++ last tail, l.length < c.max) (acc : ∀ l ∈ ls ++ last tail, c.accept (dropCR l) = true) :
    .done ∈ s.events ∧ outs s.events = (ls ++ last tail).map dropCR ∧
    ((∀ l ∈ es ++ last etail, l.length < c.max) → errs s.events = es.map dropCR) := by
  obtain ⟨⟨raw, ho, hn, hsz, hat⟩, ⟨raw2, rest2, he2, hn2, hat2, hr2⟩, hx, hd, hen, hw, heof⟩ := inv_reached h
  have hrest : s.out.rest = [] := by
    cases hst : s.out.st with
    | on => exact (out_rest hs hst).1
    | full => exact absurd hst (short_not_full hm hat hn hl short)
    | bad => exact absurd hst (accepted_not_bad hat hn hl acc)
    | eof => exact heof hst
  have hex : s.exited.isSome = true := by
    cases hx' : s.exited with
    | some f => rfl
    | none =>
      have h := hs (.exit false)
      rw [step, if_pos ⟨hx', hrest, err_rest hs⟩] at h
      cases h
  have hst : s.out.st = .eof := by
    cases hst : s.out.st with
    | full => exact absurd hst (short_not_full hm hat hn hl short)
    | bad => exact absurd hst (accepted_not_bad hat hn hl acc)
    | eof => rfl
    | on =>
      have h := hs .eofOut
      obtain ⟨_, h1, h2⟩ := out_rest hs hst
      rw [step, if_pos ⟨hst, h2, h1, hc, hex⟩] at h
      split at h
      · cases h
      · split at h <;> cases h
  refine ⟨hd.mpr ?_, by rw [ho, eof_all hat hst hn hl], fun hsh => ?_⟩
  · cases hee : s.ended with
    | true => rfl
    | false =>
      have h := hs .finish
      obtain ⟨f, hf⟩ := Option.isSome_iff_exists.mp hex
      rw [step, if_pos ⟨hee, fun _ => by rw [hst]; exact fun h => by cases h⟩, hf] at h
      cases h
  · rw [he2]
    congr 1
    have hon : s.err.st = .on := by
      cases hst : s.err.st with
      | on => rfl
      | full =>
        exact absurd (show ({ s.err with rest := rest2 } : Stream).st = .full from hst)
          (short_not_full (c := ⟨c.max, false, false, fun _ => true⟩) hm hat2 hn2 he hsh)
      | bad =>
        exact absurd (show ({ s.err with rest := rest2 } : Stream).st = .bad from hst)
          (accepted_not_bad (c := ⟨c.max, false, false, fun _ => true⟩) hat2 hn2 he (fun _ _ => rfl))
      | eof => exact absurd (at_open hat2 rfl) (by simp [hst])
    have e := (at_on hat2 hon).1
    have h0 := hr2 hon
    rw [h0, show ({ s.err with rest := s.err.rest } : Stream).rest = s.err.rest from rfl, err_rest hs, List.append_nil] at e
    rw [e] at he
    obtain ⟨ls', e', h'⟩ := lines_split he hn2
    have := (lines_none h' (nextLine_none.mp (line_none_err (hs .lineErr) hon))).1
    rw [e', this, List.append_nil]

/-- What is left of a text with too long a line is too long for a buffer. -/
theorem long_left {n : Nat} {raw ls : List Str} {m l more : Str} (hr : ∀ k ∈ raw, '\n' ∉ k) (hz : ∀ k ∈ raw, k.length < n)
    (hls : ∀ k ∈ ls, '\n' ∉ k) (hl : '\n' ∉ l) (hn : l.length = n) (e : unlines raw ++ m = unlines ls ++ (l ++ more)) :
    n + more.length ≤ m.length := by
  induction raw generalizing ls with
  | nil =>
    have := congrArg List.length e
    simp [unlines] at this
    omega
  | cons k raw ih =>
    rw [unlines_cons, List.append_assoc] at e
    cases ls with
    | nil =>
      exfalso
      have hk := hz k List.mem_cons_self
      rw [show unlines [] = [] from rfl, List.nil_append] at e
      rcases List.append_eq_append_iff.mp e with ⟨x, e1, e2⟩ | ⟨x, e1, e2⟩
      · cases x with
        | nil => rw [e1] at hn; simp at hn; omega
        | cons y x =>
          simp only [List.cons_append, List.cons.injEq] at e2
          exact hl (by rw [e1, ← e2.1]; simp)
      · rw [e1] at hk; simp at hk; omega
    | cons k' ls =>
      rw [unlines_cons, List.append_assoc] at e
      obtain ⟨_, e2⟩ := line_inj (hr k List.mem_cons_self) (hls k' List.mem_cons_self) e
      exact ih (fun x hx => hr x (List.mem_cons_of_mem _ hx)) (fun x hx => hz x (List.mem_cons_of_mem _ hx))
        (fun x hx => hls x (List.mem_cons_of_mem _ hx)) e2

theorem not_done {c : Cfg} {out err : Str} {s : St} (hi : Inv c out err s) (h : s.out.rest ≠ []) : .done ∉ s.events ∧ s.exited = none := by
  have h0 : s.exited.isSome ≠ true := fun hx => h (hi.exit hx).1
  exact ⟨fun hd => h0 (hi.ended (hi.done.mp hd)), by simpa using h0⟩

theorem left_rest {c : Cfg} {out : Str} {raw : List Str} {x : Stream} (hat : At c out raw x) (hz : ∀ k ∈ raw, k.length < c.max)
    (left : ∀ raw' m, raw' <+: raw → out = unlines raw' ++ m → c.max < m.length) : x.rest ≠ [] := by
  intro hr
  cases hat with
  | on buf rest e hl =>
    have := left raw _ (List.prefix_refl _) e
    simp only at hr
    rw [hr] at this; simp at this; omega
  | full buf rest e hl _ _ =>
    have := left raw _ (List.prefix_refl _) e
    simp only at hr
    rw [hr] at this; simp at this; omega
  | badLine l buf rest e _ _ hl =>
    have := left raw _ (List.prefix_refl _) e
    simp only at hr
    rw [hr] at this; simp at this; omega
  | badLast l buf rest e _ _ _ hl =>
    have := left raw _ (List.prefix_refl _) e
    omega
  | eof rest e _ =>
    have := left raw [] (List.prefix_refl _) (by rw [e]; simp)
    simp at this
  | last raw' l rest e1 e _ _ _ =>
    have := left raw' _ (by rw [e1]; exact List.prefix_append ..) e
    have := hz l (by rw [e1]; simp)
    omega

/-- **C84** (a long line) A program that prints a line of 64 KiB or more, and anything after these 64 KiB, is never seen to end: it hangs
    in its write, and the page waits for ever – whatever the scheduling, and however much of the error output is shown. -/
theorem C84_hang {c : Cfg} {out err : Str} {ls : List Str} {l more : Str} (e : out = unlines ls ++ (l ++ more))
    (hls : ∀ k ∈ ls, '\n' ∉ k) (hl : '\n' ∉ l) (hn : l.length = c.max) (hm : more ≠ []) {s : St} (h : Reached c out err s) :
    s.out.rest ≠ [] ∧ .done ∉ s.events ∧ s.exited = none := by
  have hi := inv_reached h
  have hp := List.length_pos_iff.mpr hm
  suffices hr : s.out.rest ≠ [] from ⟨hr, not_done hi hr⟩
  obtain ⟨raw, _, hr, hz, hat⟩ := hi.outAt
  refine left_rest hat hz fun raw' m hp e' => ?_
  have := long_left (fun k hk => hr k (hp.subset hk)) (fun k hk => hz k (hp.subset hk)) hls hl hn (e'.symm.trans e)
  omega

/-- What a step sends. -/
inductive Sends (c : Cfg) (s : St) : List Ev → Prop
  | nothing : Sends c s []
  | out (l : Str) : s.out.st = .on → c.accept l = true → Sends c s [.out l]
  | err (l : Str) : Sends c s [.err l]
  | bad : Sends c s [.bad]
  | done (f : Bool) : s.ended = false → Sends c s ((if f then [.fail] else []) ++ [.done])

theorem step_sends {c : Cfg} {s s' : St} {a : Label} (h : step c s a = some s') : ∃ new, Sends c s new ∧ s'.events = s.events ++ new := by
  cases a with
  | readOut k => obtain ⟨x, h1, rfl⟩ := Option.map_eq_some_iff.mp h; exact ⟨[], .nothing, by simp⟩
  | readErr k => obtain ⟨x, h1, rfl⟩ := Option.map_eq_some_iff.mp h; exact ⟨[], .nothing, by simp⟩
  | fullOut => obtain ⟨x, h1, rfl⟩ := Option.map_eq_some_iff.mp h; exact ⟨[], .nothing, by simp⟩
  | fullErr => obtain ⟨x, h1, rfl⟩ := Option.map_eq_some_iff.mp h; exact ⟨[], .nothing, by simp⟩
  | lineOut =>
    rw [step] at h
    split at h
    case isFalse => cases h
    case isTrue hst =>
      cases hl : nextLine s.out.buf with
      | none => rw [hl] at h; cases h
      | some p =>
        rw [hl] at h
        simp only at h
        split at h
        case isTrue ha => cases h; exact ⟨_, .out _ hst ha, rfl⟩
        case isFalse => cases h; exact ⟨_, .bad, rfl⟩
  | eofOut =>
    rw [step] at h
    split at h
    case isFalse => cases h
    case isTrue hc =>
      split at h
      · cases h; exact ⟨[], .nothing, by simp⟩
      · split at h
        case isTrue ha => cases h; exact ⟨_, .out _ hc.1 ha, rfl⟩
        case isFalse => cases h; exact ⟨_, .bad, rfl⟩
  | lineErr =>
    rw [step] at h
    split at h
    case isFalse => cases h
    case isTrue hst =>
      cases hl : nextLine s.err.buf with
      | none => rw [hl] at h; cases h
      | some p => rw [hl] at h; cases h; exact ⟨_, .err _, rfl⟩
  | breakErr =>
    rw [step] at h
    split at h
    case isFalse => cases h
    case isTrue hc => cases h; exact ⟨[], .nothing, by simp⟩
  | exit f =>
    rw [step] at h
    split at h
    case isFalse => cases h
    case isTrue hc => cases h; exact ⟨[], .nothing, by simp⟩
  | finish =>
    rw [step] at h
    split at h
    case isFalse => cases h
    case isTrue hc =>
      cases hx : s.exited with
      | none => rw [hx] at h; cases h
      | some f => rw [hx] at h; cases h; exact ⟨_, .done f hc.1, by simp⟩

/-- A property of the states that are reached, by induction on the steps. -/
theorem reached_ind {c : Cfg} {out err : Str} {P : St → Prop} (h0 : P (start out err))
    (hs : ∀ s s' a, Inv c out err s → P s → step c s a = some s' → P s') {s : St} (h : Reached c out err s) : P s := by
  obtain ⟨l, hl⟩ := h
  have : ∀ (l : List Label) (t : St), Inv c out err t → P t → run c t l = some s → P s := by
    intro l
    induction l with
    | nil => intro t _ hp h; cases h; exact hp
    | cons a l ih =>
      intro t hi hp h
      obtain ⟨u, h1, h2⟩ := Option.bind_eq_some_iff.mp h
      exact ih u (inv_step hi h1) (hs t u a hi hp h1) h2
  exact this l _ (inv_start c out err) h0 hl

theorem accepted_reached {c : Cfg} {out err : Str} {s : St} (h : Reached c out err s) : ∀ l ∈ outs s.events, c.accept l = true := by
  refine reached_ind (P := fun s => ∀ l ∈ outs s.events, c.accept l = true) ?_ ?_ h
  · intro l hl; cases hl
  · intro s s' a _ ih hst l hl
    obtain ⟨new, hn, e⟩ := step_sends hst
    rw [e, outs, List.filterMap_append, List.mem_append] at hl
    rcases hl with hl | hl
    · exact ih l hl
    · cases hn with
      | nothing => cases hl
      | out k _ ha => simp at hl; rw [hl]; exact ha
      | err k => simp at hl
      | bad => simp at hl
      | done f _ => cases f <;> simp at hl

/-- Lines that are read end before one that is not. -/
theorem rejected_left {c : Cfg} {raw ls : List Str} {m l more : Str} (hr : ∀ k ∈ raw, '\n' ∉ k)
    (ha : ∀ k ∈ raw, c.accept (dropCR k) = true) (hls : ∀ k ∈ ls, '\n' ∉ k) (hl : '\n' ∉ l) (hacc : c.accept (dropCR l) = false)
    (e : unlines raw ++ m = unlines ls ++ (l ++ '\n' :: more)) :
    ∃ ls', ls = raw ++ ls' ∧ m = unlines ls' ++ (l ++ '\n' :: more) := by
  induction raw generalizing ls with
  | nil => exact ⟨ls, rfl, e⟩
  | cons k raw ih =>
    rw [unlines_cons, List.append_assoc] at e
    cases ls with
    | nil =>
      exfalso
      obtain ⟨e1, _⟩ := line_inj (hr k List.mem_cons_self) hl e
      have := ha k List.mem_cons_self
      rw [e1, hacc] at this; cases this
    | cons k' ls =>
      rw [unlines_cons, List.append_assoc] at e
      obtain ⟨e1, e2⟩ := line_inj (hr k List.mem_cons_self) (hls k' List.mem_cons_self) e
      obtain ⟨ls', e3, e4⟩ := ih (fun x hx => hr x (List.mem_cons_of_mem _ hx)) (fun x hx => ha x (List.mem_cons_of_mem _ hx))
        (fun x hx => hls x (List.mem_cons_of_mem _ hx)) e2
      exact ⟨ls', by rw [e1, e3]; rfl, e4⟩

/-- **C84** (a line that is no event) When a session of several tests gets a line that is no event, neither that nor any later line is
    shown; and if there is more behind it than the buffer takes, the run hangs as well. -/
theorem C84_rejected {c : Cfg} {out err : Str} {ls : List Str} {l more : Str} (e : out = unlines ls ++ (l ++ '\n' :: more))
    (hls : ∀ k ∈ ls, '\n' ∉ k) (hl : '\n' ∉ l) (hacc : c.accept (dropCR l) = false) {s : St} (h : Reached c out err s) :
    outs s.events <+: ls.map dropCR ∧
    (c.max ≤ l.length + more.length → s.out.rest ≠ [] ∧ .done ∉ s.events ∧ s.exited = none) := by
  have hi := inv_reached h
  obtain ⟨raw, ho, hr, hz, hat⟩ := hi.outAt
  have ha : ∀ k ∈ raw, c.accept (dropCR k) = true := fun k hk => accepted_reached h _ (by rw [ho]; exact List.mem_map_of_mem hk)
  have split : ∀ raw' m, raw' <+: raw → out = unlines raw' ++ m → ∃ ls', ls = raw' ++ ls' ∧ m = unlines ls' ++ (l ++ '\n' :: more) :=
    fun raw' m hp e' => rejected_left (fun k hk => hr k (hp.subset hk)) (fun k hk => ha k (hp.subset hk)) hls hl hacc (e'.symm.trans e)
  constructor
  · have one : ∀ m, out = unlines raw ++ m → outs s.events <+: ls.map dropCR := fun m e' => by
      obtain ⟨ls', e3, _⟩ := split raw m (List.prefix_refl _) e'
      rw [ho, e3]
      exact ⟨ls'.map dropCR, by simp⟩
    generalize s.out = x at hat
    cases hat with
    | on buf rest e' _ => exact one _ e'
    | full buf rest e' _ _ _ => exact one _ e'
    | badLine l buf rest e' _ _ _ => exact one _ e'
    | badLast l buf rest e' _ _ _ _ => exact one _ e'
    | eof rest e' _ => exact one [] (by rw [e']; simp)
    | last raw' k rest e1 e' hk _ _ =>
      obtain ⟨ls', _, e4⟩ := split raw' k (by rw [e1]; exact List.prefix_append ..) e'
      exact absurd (by rw [e4]; simp) hk
  · intro hm
    suffices hr : s.out.rest ≠ [] from ⟨hr, not_done hi hr⟩
    refine left_rest hat hz fun raw' m hp e' => ?_
    obtain ⟨ls', _, e4⟩ := split raw' m hp e'
    rw [e4]; simp; omega

/-- **C84** (`/run` and `/debug`) There the pipe is never closed: a last line that no newline ends is never shown. -/
theorem C84_open {c : Cfg} (hc : c.closes = false) {out err : Str} {s : St} (h : Reached c out err s) {ls : List Str} {tail : Str}
    (hl : Lines out ls tail) : outs s.events <+: ls.map dropCR := by
  obtain ⟨raw, ho, hn, _, hat⟩ := (inv_reached h).outAt
  rw [ho]
  exact prefix_map _ ((at_prefix hat hn hl).2 hc)

theorem snoc_done {a b es new : List Ev} (e : es ++ new = a ++ .done :: b) (hn : .done ∉ new) :
    ∃ b', es = a ++ .done :: b' ∧ b = b' ++ new := by
  rcases List.append_eq_append_iff.mp e with ⟨x, e1, e2⟩ | ⟨x, e1, e2⟩
  · exact absurd (by rw [e2]; simp) hn
  · cases x with
    | nil => exact absurd (show Ev.done ∈ new by rw [← List.nil_append new, ← e2]; simp) hn
    | cons y x =>
      simp only [List.cons_append, List.cons.injEq] at e2
      exact ⟨x, by rw [e1, ← e2.1], e2.2⟩

/-- **C84** (the end is the end) In a session, no line of the output comes after the end of the run, and the end comes once. -/
theorem C84_last {c : Cfg} (hw : c.waits = true) {out err : Str} {s : St} (h : Reached c out err s) {a b : List Ev}
    (e : s.events = a ++ .done :: b) : outs b = [] ∧ .done ∉ b := by
  refine reached_ind (P := fun s => ∀ a b, s.events = a ++ .done :: b → outs b = [] ∧ .done ∉ b) ?_ ?_ h a b e
  all_goals clear e a b
  · intro a b e
    exact absurd (congrArg List.length e) (by simp [start])
  · intro s s' l hi ih hst a b e
    obtain ⟨new, hn, e'⟩ := step_sends hst
    rw [e'] at e
    cases hn with
    | nothing => exact ih a b (by simpa using e)
    | out k hon _ =>
      obtain ⟨b', e1, e2⟩ := snoc_done e (by simp)
      exact absurd hon (hi.waits hw (hi.done.mp (by rw [e1]; simp)))
    | err k =>
      obtain ⟨b', e1, e2⟩ := snoc_done e (by simp)
      obtain ⟨h1, h2⟩ := ih a b' e1
      rw [e2]
      exact ⟨by rw [(outs_err _ _).1, h1], by simp [h2]⟩
    | bad =>
      obtain ⟨b', e1, e2⟩ := snoc_done e (by simp)
      obtain ⟨h1, h2⟩ := ih a b' e1
      rw [e2]
      exact ⟨by rw [(outs_bad _).1, h1], by simp [h2]⟩
    | done f hne =>
      have hno : .done ∉ s.events := fun h => by rw [hi.done.mp h] at hne; cases hne
      have hno' : .done ∉ s.events ++ (if f then [.fail] else []) := by cases f <;> simp [hno]
      rw [← List.append_assoc] at e
      cases List.eq_nil_or_concat b with
      | inl hb => subst hb; exact ⟨rfl, by simp⟩
      | inr hb =>
        obtain ⟨b', y, rfl⟩ := hb
        exfalso
        rw [show a ++ Ev.done :: (b'.concat y) = (a ++ .done :: b') ++ [y] by simp] at e
        have := (List.append_inj' e rfl).1
        exact hno' (by rw [this]; simp)

/-- **C84** (`dropCR`) What is shown of a line is the line, without a carriage return at its end. -/
theorem C84_line (l : Str) : dropCR (l ++ ['\r']) = l ∧ ((¬ ∃ k, l = k ++ ['\r']) → dropCR l = l) := by
  refine ⟨by simp [dropCR], fun h => ?_⟩
  rw [dropCR, if_neg]
  intro e
  rcases List.eq_nil_or_concat l with rfl | ⟨k, y, rfl⟩
  · cases e
  · simp at e
    exact h ⟨k, by simp [e]⟩

/-! ### Examples -/

/-- A session with a small buffer. -/
def tiny : Cfg := ⟨4, true, true, fun l => l ≠ ['?']⟩

def tinyOpen : Cfg := ⟨4, false, false, fun _ => true⟩

/-- Everything arrives: two lines, a third one that is not ended, and one of the error output. -/
example : ((run tiny (start "a\nb\r\nc".toList "e\nf".toList)
      [.readOut 2, .lineOut, .readErr 3, .lineErr, .readOut 4, .lineOut, .exit false, .eofOut, .finish]).map St.events)
    = some [.out ['a'], .err ['e'], .out ['b'], .out ['c'], .done] := by decide +kernel

/-- C84_ends' hypotheses are met by that text. -/
example : Lines "a\nb\r\nc".toList ["a".toList, "b\r".toList] "c".toList ∧
    ∀ l ∈ ["a".toList, "b\r".toList] ++ last "c".toList, l.length < tiny.max ∧ tiny.accept (dropCR l) = true := by
  refine ⟨⟨by decide, by decide, by decide⟩, by decide⟩

/-- The hang: the line "abcd" fills the buffer, the reader leaves, and the program waits in its write. -/
theorem C84_hang_witness : ∃ s, Reached tiny "x\nabcde\n".toList [] s ∧ Stuck tiny s ∧ s.events = [.out ['x']] := by
  refine ⟨⟨⟨"e\n".toList, "abcd".toList, .full⟩, ⟨[], [], .on⟩, none, false, false, [.out ['x']]⟩,
    ⟨[.readOut 2, .lineOut, .readOut 4, .fullOut], by decide +kernel⟩, ?_, rfl⟩
  intro a
  cases a with
  | readOut k => simp [step, Stream.read]
  | readErr k =>
    simp only [step, Stream.read, List.length_nil, Option.map_eq_none_iff, ite_eq_right_iff]
    intro h; omega
  | exit f => cases f <;> decide
  | _ => decide

example : "x\nabcde\n".toList = unlines ["x".toList] ++ ("abcd".toList ++ "e\n".toList) ∧ "abcd".toList.length = tiny.max := by decide

/-- **C84** (the error output of a session may come late) A line of the error output may be sent after the end of the run. -/
theorem C84_err_after_end : ∃ s, Reached tiny "a\n".toList "e\n".toList s ∧ s.events = [.out ['a'], .done, .err ['e']] :=
  ⟨_, ⟨[.readOut 2, .readErr 2, .lineOut, .exit false, .eofOut, .finish, .lineErr], rfl⟩, by decide +kernel⟩

/-- **C84** (a long line of the error output fails the run) The program exits with success, and the run is shown as failed. -/
theorem C84_err_long : ∃ l s, run tiny (start "a\n".toList "abcde\n".toList) l = some s ∧ .exit false ∈ l ∧
    s.events = [.out ['a'], .fail, .done] :=
  ⟨[.readOut 2, .lineOut, .readErr 4, .fullErr, .breakErr, .exit false, .eofOut, .finish], _, rfl, by decide, by decide +kernel⟩

/-- **C84** (`/run` and `/debug` end too early) There the end may be sent before any of the output. -/
theorem C84_end_first : ∃ s, Reached tinyOpen "a\n".toList [] s ∧ s.events = [.done, .out ['a']] :=
  ⟨_, ⟨[.readOut 2, .exit false, .finish, .lineOut], rfl⟩, by decide +kernel⟩

/-- A line that is no event: the run hangs, with a message. -/
example : ((run tiny (start "a\n?\nbcdef\n".toList []) [.readOut 4, .lineOut, .lineOut]).map St.events)
    = some [.out ['a'], .bad] ∧ tiny.accept ['?'] = false ∧ tiny.max ≤ ['?'].length + "bcdef\n".toList.length := by decide +kernel

/-- **C84** (a session, in its real size) A session of the explorer never hangs on lines shorter than 64 KiB that it reads: when nothing more
can happen, the end has been sent, all lines have been sent, in order, and no line comes after the end. A line of 64 KiB with something
after it (a line of 65536 bytes and its newline, for one) hangs the session. -/
theorem C84_session (accept : Str → Bool) {out err : Str} {s : St} (h : Reached (session accept) out err s) :
    (∀ ls es tail etail, Lines out ls tail → Lines err es etail → Stuck (session accept) s → (∀ l ∈ ls ++ last tail, l.length < 65536) →
      (∀ l ∈ ls ++ last tail, accept (dropCR l) = true) →
      .done ∈ s.events ∧ outs s.events = (ls ++ last tail).map dropCR ∧
      ((∀ l ∈ es ++ last etail, l.length < 65536) → errs s.events = es.map dropCR)) ∧
    (∀ a b, s.events = a ++ .done :: b → outs b = [] ∧ .done ∉ b) ∧
    (∀ ls l more, out = unlines ls ++ (l ++ more) → (∀ k ∈ ls, '\n' ∉ k) → '\n' ∉ l → l.length = 65536 → more ≠ [] →
      .done ∉ s.events) :=
  ⟨fun _ _ _ _ hl he hs h1 h2 => C84_ends rfl (by show 0 < 65536; decide) h hs hl he h1 h2, fun _ _ e => C84_last rfl h e,
    fun _ _ _ e h1 h2 h3 h4 => (C84_hang e h1 h2 h3 h4 h).2.1⟩

/-- **C84** (`/run` and `/debug`, as they are) An unfinished last line is never sent, and the end may be sent before all of the output. -/
theorem C84_polled : (∀ {out err : Str} {s : St}, Reached polled out err s → ∀ ls tail, Lines out ls tail → outs s.events <+: ls.map dropCR) ∧
    ∃ s, Reached polled "a\n".toList [] s ∧ s.events = [.done, .out ['a']] :=
  ⟨fun h _ _ hl => C84_open rfl h hl, _, ⟨[.readOut 2, .exit false, .finish, .lineOut], rfl⟩, by decide +kernel⟩

/-- A session that ends. -/
example : ((run (session fun _ => true) (start "a\nb".toList []) [.readOut 3, .lineOut, .exit false, .eofOut, .finish]).map St.events)
    = some [.out ['a'], .out ['b'], .done] := by decide +kernel

end Verif.Cmd.RunOutput
