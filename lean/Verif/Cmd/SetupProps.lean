/-
C66: the setup of the instrumented GOROOT can be interrupted at any point.
-/
import Verif.Cmd.SetupSpec

namespace Verif.Cmd.Setup

variable {w : World}

/-! ### One process -/

/-- The rest is there and complete, and so are programs that work. -/
def Based (w : World) (d : Disk w) : Prop :=
  ∃ r t, d.root = some r ∧ r.rest = some w.rest ∧ r.tools = some t ∧ w.works t = true

/-- After patching: truncate, write, use. -/
def tail (w : World) (v : Str) (f : Flags) : List (Op w) := [.truncate, .write v, .use v f true]

/-- The GOROOT is good if nothing was left out. -/
def Done (w : World) (v : Str) (f : Flags) (d : Disk w) : Prop := f.skip = false → Good w v f.filePatches d.root

/-- Where a process is, and what it relies on. -/
inductive Phase (w : World) : List (Op w) → Disk w → Prop where
  | nil {d} : Phase w [] d
  | plain {d v f} : Phase w [.use v f false] d
  | sync {d v f} : Phase w (.sync :: .patch v f.filePatches f.skip :: tail w v f) d
  | copySrc {d v f} : d.record = true → Phase w (.copySrc :: .patch v f.filePatches f.skip :: tail w v f) d
  | rmRecord {d v f} : Phase w (.rmRecord :: .copyAll :: .writeRecord :: .patch v f.filePatches f.skip :: tail w v f) d
  | copyAll {d v f} : d.record = false → Phase w (.copyAll :: .writeRecord :: .patch v f.filePatches f.skip :: tail w v f) d
  | writeRecord {d v f} : d.record = false → d.root = some w.copied →
      Phase w (.writeRecord :: .patch v f.filePatches f.skip :: tail w v f) d
  | patch {d v f r} : Based w d → d.root = some r → r.src = some w.src →
      Phase w (.patch v f.filePatches f.skip :: tail w v f) d
  | patching {d v f} : Based w d → Phase w (.patching (w.patch v f.filePatches w.src) f.skip :: tail w v f) d
  | truncate {d v f} : Done w v f d → Phase w (tail w v f) d
  | write {d v f} : Done w v f d → Phase w [.write v, .use v f true] d
  | use {d v f} : Done w v f d → Phase w [.use v f true] d

structure Inv (w : World) (s : State w) : Prop where
  record : s.disk.record = true → Based w s.disk
  phase : ∀ t ∈ s.procs, Phase w t s.disk
  used : ∀ u ∈ s.used, u.did = true → u.flags.skip = false → Good w u.version u.flags.filePatches u.root

theorem one {l r : List (List (Op w))} {t : List (Op w)} (h : (l ++ t :: r).length ≤ 1) : l = [] ∧ r = [] := by
  simp only [List.length_append, List.length_cons] at h
  exact ⟨List.length_eq_zero_iff.mp (by omega), List.length_eq_zero_iff.mp (by omega)⟩

theorem plan_phase (f : Flags) (v : Str) (d : Disk w) (h1 : f.reset = false) (h2 : f.delete = false) : Phase w (plan f v d) d := by
  unfold plan
  simp only [h1, h2, Bool.false_eq_true, if_false, List.nil_append]
  split
  · exact .sync
  · exact .plain

/-- What is known about the one process. -/
theorem only {s : State w} (i : Inv w s) (hl : s.procs.length ≤ 1) {l r : List (List (Op w))} {t : List (Op w)}
    (e : s.procs = l ++ t :: r) : l = [] ∧ r = [] ∧ Phase w t s.disk := by
  have := i.phase t (by rw [e]; simp)
  rw [e] at hl
  exact ⟨(one hl).1, (one hl).2, this⟩

theorem inv_step {s t : State w} (ok : w.Ok) (i : Inv w s) (hl : s.procs.length ≤ 1) (hl' : t.procs.length ≤ 1) (h : Step s t)
    (keep : KeepsDir t.log) : Inv w t := by
  cases h with
  | spawn f v =>
    have hf := keep (f, v) (by simp)
    refine { i with phase := ?_ }
    intro t ht
    simp only [List.mem_append, List.mem_singleton] at ht
    rcases ht with ht | rfl
    · exact i.phase t ht
    · exact plan_phase f v s.disk hf.1 hf.2
  | kill e =>
    refine { i with phase := ?_ }
    intro t ht
    exact i.phase t (by rw [e]; simp only [List.mem_append, List.mem_cons] at ht ⊢; exact ht.imp id .inr)
  | rmDirPart root record revision e =>
    obtain ⟨_, _, p⟩ := only i hl e
    cases p
  | rmDir e =>
    obtain ⟨_, _, p⟩ := only i hl e
    cases p
  | syncSrc e h1 h2 h3 =>
    obtain ⟨rfl, rfl, p⟩ := only i hl e
    refine { i with phase := ?_ }
    simp only [List.nil_append, List.mem_singleton, forall_eq]
    cases p
    exact .copySrc h3
  | syncAll e h1 =>
    obtain ⟨rfl, rfl, p⟩ := only i hl e
    refine { i with phase := ?_ }
    simp only [List.nil_append, List.mem_singleton, forall_eq]
    cases p
    exact .rmRecord
  | rmRecord e =>
    obtain ⟨rfl, rfl, p⟩ := only i hl e
    refine { i with record := by simp, phase := ?_ }
    simp only [List.nil_append, List.mem_singleton, forall_eq]
    cases p
    exact .copyAll rfl
  | copyAllPart root e =>
    obtain ⟨rfl, rfl, p⟩ := only i hl e
    generalize hx : (Op.copyAll :: _ : List (Op w)) = x at p
    cases p <;> cases hx
    rename_i hr
    refine { i with record := fun h => absurd (hr.symm.trans h) (by decide), phase := ?_ }
    intro t ht
    rw [show s.procs = _ from e] at ht
    simp only [List.nil_append, List.mem_singleton] at ht
    subst ht
    exact .copyAll hr
  | copyAll e =>
    obtain ⟨rfl, rfl, p⟩ := only i hl e
    generalize hx : (Op.copyAll :: _ : List (Op w)) = x at p
    cases p <;> cases hx
    rename_i hr
    refine { i with record := fun h => absurd (hr.symm.trans h) (by decide), phase := ?_ }
    simp only [List.nil_append, List.mem_singleton, forall_eq]
    exact .writeRecord hr rfl
  | writeRecord e =>
    obtain ⟨rfl, rfl, p⟩ := only i hl e
    generalize hx : (Op.writeRecord :: _ : List (Op w)) = x at p
    cases p <;> cases hx
    rename_i hr hc
    have b : Based w { s.disk with record := true } := ⟨w.copied, w.tools, hc, rfl, rfl, ok.1⟩
    refine { i with record := fun _ => b, phase := ?_ }
    simp only [List.nil_append, List.mem_singleton, forall_eq]
    exact .patch b hc rfl
  | @copySrcPart l r t root src e h1 =>
    obtain ⟨rfl, rfl, p⟩ := only i hl e
    generalize hx : (Op.copySrc :: _ : List (Op w)) = x at p
    cases p <;> cases hx
    rename_i hr
    obtain ⟨r, t, b1, b2, b3, b4⟩ := i.record hr
    rw [h1] at b1; cases b1
    refine { i with record := fun _ => ⟨_, t, rfl, b2, b3, b4⟩, phase := ?_ }
    intro t ht
    rw [show s.procs = _ from e] at ht
    simp only [List.nil_append, List.mem_singleton] at ht
    subst ht
    exact .copySrc hr
  | @copySrc l r t root e h1 =>
    obtain ⟨rfl, rfl, p⟩ := only i hl e
    generalize hx : (Op.copySrc :: _ : List (Op w)) = x at p
    cases p <;> cases hx
    rename_i hr
    obtain ⟨r, t, b1, b2, b3, b4⟩ := i.record hr
    rw [h1] at b1; cases b1
    refine { i with record := fun _ => ⟨_, t, rfl, b2, b3, b4⟩, phase := ?_ }
    simp only [List.nil_append, List.mem_singleton, forall_eq]
    exact .patch ⟨_, t, rfl, b2, b3, b4⟩ rfl rfl
  | @patchStart l r t v fp skip root src tools e h1 h2 h3 h4 =>
    obtain ⟨rfl, rfl, p⟩ := only i hl e
    generalize hx : (Op.patch v fp skip :: t : List (Op w)) = x at p
    cases p <;> cases hx
    rename_i hs b hr
    rw [h1] at hr; cases hr
    rw [h2] at hs; cases hs
    refine { i with phase := ?_ }
    simp only [List.nil_append, List.mem_singleton, forall_eq]
    exact .patching b
  | @patchPart l r t new skip root src tools e h1 h2 =>
    obtain ⟨rfl, rfl, p⟩ := only i hl e
    generalize hx : (Op.patching new skip :: t : List (Op w)) = x at p
    cases p <;> cases hx
    rename_i b
    obtain ⟨r, t, b1, b2, b3, b4⟩ := b
    rw [h1] at b1; cases b1
    refine { i with record := fun _ => ⟨_, tools, rfl, b2, rfl, h2⟩, phase := ?_ }
    intro t ht
    rw [show s.procs = _ from e] at ht
    simp only [List.nil_append, List.mem_singleton] at ht
    subst ht
    exact .patching ⟨_, tools, rfl, b2, rfl, h2⟩
  | @patch l r t new skip root e h1 =>
    obtain ⟨rfl, rfl, p⟩ := only i hl e
    generalize hx : (Op.patching new skip :: t : List (Op w)) = x at p
    cases p <;> cases hx
    rename_i v f b
    obtain ⟨r, t, b1, b2, b3, b4⟩ := b
    rw [h1] at b1; cases b1
    refine { i with record := fun _ => ?_, phase := ?_ }
    · cases hs : f.skip with
      | true => exact ⟨_, t, rfl, b2, by simpa using b3, b4⟩
      | false => exact ⟨_, _, rfl, b2, by simp, ok.2 v f.filePatches⟩
    · simp only [List.nil_append, List.mem_singleton, forall_eq]
      refine .truncate ?_
      intro hs
      simp [Good, hs, b2]
  | truncate e =>
    obtain ⟨rfl, rfl, p⟩ := only i hl e
    generalize hx : (Op.truncate :: _ : List (Op w)) = x at p
    cases p <;> cases hx
    rename_i d
    refine { i with phase := ?_ }
    simp only [List.nil_append, List.mem_singleton, forall_eq]
    exact .write d
  | @write l r t v e =>
    obtain ⟨rfl, rfl, p⟩ := only i hl e
    generalize hx : (Op.write v :: t : List (Op w)) = x at p
    cases p <;> cases hx
    rename_i d
    refine { i with phase := ?_ }
    simp only [List.nil_append, List.mem_singleton, forall_eq]
    exact .use d
  | @use l r t v f did e =>
    obtain ⟨rfl, rfl, p⟩ := only i hl e
    generalize hx : (Op.use v f did :: t : List (Op w)) = x at p
    cases p <;> cases hx
    · refine { i with phase := ?_, used := ?_ }
      · simp only [List.nil_append, List.mem_singleton, forall_eq]; exact .nil
      · intro u hu
        simp only [List.mem_append, List.mem_singleton] at hu
        rcases hu with hu | rfl
        · exact i.used u hu
        · simp
    · rename_i d
      refine { i with phase := ?_, used := ?_ }
      · simp only [List.nil_append, List.mem_singleton, forall_eq]; exact .nil
      · intro u hu
        simp only [List.mem_append, List.mem_singleton] at hu
        rcases hu with hu | rfl
        · exact i.used u hu
        · intro _ hs; exact d hs

theorem log_step {s t : State w} (h : Step s t) : s.log <+: t.log := by
  cases h <;> first | exact List.prefix_append _ _ | exact List.prefix_refl _

theorem keeps_prefix {a b : List (Flags × Str)} (h : a <+: b) (k : KeepsDir b) : KeepsDir a :=
  fun x hx => k x (h.subset hx)

theorem alone_le {s : State w} (h : Alone {} s) : s.procs.length ≤ 1 := by
  cases h with
  | refl => simp
  | step _ _ h => exact h

theorem inv_alone {s : State w} (ok : w.Ok) (h : Alone {} s) (keep : KeepsDir s.log) : Inv w s := by
  generalize h0 : ({} : State w) = s0 at h
  induction h with
  | refl => subst h0; exact ⟨by simp, by simp, by simp⟩
  | step h1 hs hl ih =>
    subst h0
    exact inv_step ok (ih (keeps_prefix (log_step hs) keep)) (alone_le h1) hl hs keep

/-- **C66.** Runs of xgo of any versions, one after the other, with any flags that do not remove the directory, each
    interrupted anywhere: a run that has set up the GOROOT itself uses a good one. -/
theorem C66_setup_partial (ok : w.Ok) {s : State w} (h : Alone {} s) (keep : KeepsDir s.log) (u : Use w) (hu : u ∈ s.used)
    (hd : u.did = true) (hs : u.flags.skip = false) : Good w u.version u.flags.filePatches u.root :=
  (inv_alone ok h keep).used u hu hd hs

/-! ### Runs that find the GOROOT set up -/

/-- The revision is that of the last run only if the GOROOT is good, and there is nothing more to be done than to use it. -/
structure Inv2 (w : World) (s : State w) : Prop where
  known : ∀ r, s.disk.revision = some r → r ≠ [] → ∃ x ∈ s.log, x.2 = r
  done : ∀ r, s.disk.revision = some r → r ≠ [] → (∃ x ∈ s.log.getLast?, x.2 = r) →
    Good w r false s.disk.root ∧ ∀ t ∈ s.procs, ∃ d, t = [] ∨ t = [.use r {} d]
  procs : ∀ t ∈ s.procs, ∀ op ∈ t, (∀ v, op = .write v → ∃ x ∈ s.log.getLast?, x.2 = v) ∧
    (∀ v f d, op = .use v f d → f = {} ∧ ∃ x ∈ s.log.getLast?, x.2 = v) ∧
    (∀ v fp sk, op = .patch v fp sk → fp = false ∧ sk = false ∧ ∃ x ∈ s.log.getLast?, x.2 = v)
  plainUse : ∀ t ∈ s.procs, ∀ v f, .use v f false ∈ t → s.disk.revision = some v ∧ v ≠ []
  used : ∀ u ∈ s.used, Good w u.version false u.root

theorem plan_plain (v : Str) (d : Disk w) : plan {} v d =
    if changed d.revision v || d.root.isNone then [.sync, .patch v false false, .truncate, .write v, .use v {} true]
    else [.use v {} false] := by
  simp [plan]

theorem not_changed {r : Option Str} {v : Str} (h : changed r v = false) : r = some v ∧ v ≠ [] := by
  unfold changed at h
  cases r with
  | none => simp at h
  | some x =>
    simp only [Option.getD_some, Bool.or_eq_false_iff, decide_eq_false_iff_not, Decidable.not_not] at h
    obtain ⟨h1, h2⟩ := h
    subst h2
    exact ⟨rfl, h1⟩

/-- The process does not write, so that what it relies on stays. -/
theorem inv2_same {s : State w} (j : Inv2 w s) {l r : List (List (Op w))} {t t' : List (Op w)} (e : s.procs = l ++ t :: r)
    (hsub : ∀ op ∈ t', op ∈ t ∨ (op = .copySrc ∨ op = .rmRecord ∨ op = .copyAll ∨ op = .writeRecord ∨ ∃ a b, op = .patching a b))
    (d : Disk w) (hd : d.revision = s.disk.revision)
    (hno : ∀ v dd, t ≠ [] ∧ t ≠ [.use v {} dd]) :
    Inv2 w { s with disk := d, procs := l ++ t' :: r } := by
  have mem : ∀ x ∈ l ++ t' :: r, x ∈ s.procs ∨ x = t' := by
    intro x hx
    rw [e]
    simp only [List.mem_append, List.mem_cons] at hx ⊢
    rcases hx with h | h | h
    · exact .inl (.inl h)
    · exact .inr h
    · exact .inl (.inr (.inr h))
  have ht : t ∈ s.procs := by rw [e]; simp
  refine { known := ?_, done := ?_, procs := ?_, plainUse := ?_, used := j.used }
  · intro a ha; exact j.known a (by rw [← hd]; exact ha)
  · intro a ha hne hx
    obtain ⟨_, h2⟩ := j.done a (by rw [← hd]; exact ha) hne hx
    obtain ⟨dd, h3⟩ := h2 t ht
    rcases h3 with h3 | h3
    · exact absurd h3 (hno [] false).1
    · exact absurd h3 (hno a dd).2
  · intro x hx op hop
    rcases mem x hx with hx | rfl
    · exact j.procs x hx op hop
    · rcases hsub op hop with h | h
      · exact j.procs t ht op h
      · rcases h with rfl | rfl | rfl | rfl | ⟨a, b, rfl⟩ <;> simp
  · intro x hx v f hv
    show d.revision = some v ∧ _
    rw [hd]
    rcases mem x hx with hx | rfl
    · exact j.plainUse x hx v f hv
    · rcases hsub _ hv with h | h
      · exact j.plainUse t ht v f h
      · simp at h

theorem append_last {α} (l : List α) (x : α) : (l ++ [x]).getLast? = some x := by simp

theorem inv2_step {s t : State w} (i : Inv w s) (j : Inv2 w s) (hl : s.procs.length ≤ 1) (hl' : t.procs.length ≤ 1) (h : Step s t)
    (plain : Plain t.log) (nr : NoReturn t.log) : Inv2 w t := by
  cases h with
  | spawn f v =>
    have hf := plain (f, v) (by simp)
    simp only at hf
    obtain ⟨rfl, hv⟩ := hf
    have hp : s.procs = [] := by
      simp only [List.length_append, List.length_singleton] at hl'
      exact List.length_eq_zero_iff.mp (by omega)
    -- a recorded revision that is the version of this run is that of the last run
    have last : ∀ r, s.disk.revision = some r → r ≠ [] → r = v → ∃ x ∈ s.log.getLast?, x.2 = r := by
      intro r hr hne hrv
      obtain ⟨x, hx, hxr⟩ := j.known r hr hne
      obtain ⟨pre, post, e⟩ := List.append_of_mem hx
      have := nr pre x post ({}, v) [] (by simp [e]) (by rw [hxr, hrv])
      rcases List.eq_nil_or_concat post with rfl | ⟨post, y, rfl⟩
      · exact ⟨x, by simp [e], hxr⟩
      · refine ⟨y, by rw [e]; simp [List.getLast?_cons, List.getLast?_append], ?_⟩
        rw [this y (by simp), hxr]
    have good : ∀ r, s.disk.revision = some r → r ≠ [] → r = v → Good w r false s.disk.root :=
      fun r hr hne hrv => (j.done r hr hne (last r hr hne hrv)).1
    refine { known := ?_, done := ?_, procs := ?_, plainUse := ?_, used := j.used }
    · intro r hr hne
      obtain ⟨x, hx, e⟩ := j.known r hr hne
      exact ⟨x, by simp [hx], e⟩
    · intro r hr hne hx
      simp only [append_last, Option.mem_def, Option.some.injEq, exists_eq_left'] at hx
      have g := good r hr hne hx.symm
      refine ⟨g, ?_⟩
      simp only [hp, List.nil_append, List.mem_singleton, forall_eq, plan_plain]
      have hc : changed s.disk.revision v = false := by
        rw [show s.disk.revision = some r from hr, ← hx]
        simp only [changed, Option.getD_some]
        simpa using hx ▸ hne
      have hn : s.disk.root.isNone = false := by rw [show s.disk.root = _ from g]; rfl
      simp only [hc, hn, Bool.or_self, Bool.false_eq_true, if_false]
      exact ⟨false, .inr (by rw [← hx])⟩
    · simp only [hp, List.nil_append, List.mem_singleton, forall_eq, plan_plain, append_last]
      intro op hop
      split at hop
      · simp only [List.mem_cons, List.not_mem_nil, or_false] at hop
        rcases hop with rfl | rfl | rfl | rfl | rfl <;> simp
      · simp only [List.mem_singleton] at hop
        subst hop
        simp
    · simp only [hp, List.nil_append, List.mem_singleton, forall_eq, plan_plain]
      intro v' f' hu
      split at hu
      · simp at hu
      · rename_i hc
        simp only [List.mem_singleton, Op.use.injEq] at hu
        simp only [Bool.or_eq_true, not_or, Bool.not_eq_true] at hc
        have := not_changed hc.1
        rw [hu.1]
        exact this
  | @kill l r t e =>
    have mem : ∀ x ∈ l ++ r, x ∈ s.procs := by
      intro x hx
      rw [e]; simp only [List.mem_append, List.mem_cons] at hx ⊢; exact hx.imp id .inr
    refine { known := j.known, done := ?_, procs := ?_, plainUse := ?_, used := j.used }
    · intro r hr hne hx
      exact ⟨(j.done r hr hne hx).1, fun t ht => (j.done r hr hne hx).2 t (mem t ht)⟩
    · exact fun t ht => j.procs t (mem t ht)
    · exact fun t ht => j.plainUse t (mem t ht)
  | rmDirPart root record revision e =>
    obtain ⟨_, _, p⟩ := only i hl e
    cases p
  | rmDir e =>
    obtain ⟨_, _, p⟩ := only i hl e
    cases p
  | syncSrc e h1 h2 h3 => exact inv2_same j e (by simp +contextual) s.disk rfl (by simp)
  | syncAll e h1 => exact inv2_same j e (by simp +contextual) s.disk rfl (by simp)
  | rmRecord e => exact inv2_same j e (by simp +contextual) _ rfl (by simp)
  | copyAllPart root e =>
    have := inv2_same j e (t' := .copyAll :: _) (fun op h => .inl h) { s.disk with root := root } rfl (by simp)
    rw [← e] at this; exact this
  | copyAll e => exact inv2_same j e (by simp +contextual) _ rfl (by simp)
  | writeRecord e => exact inv2_same j e (by simp +contextual) _ rfl (by simp)
  | @copySrcPart l r t root src e h1 =>
    have := inv2_same j e (t' := .copySrc :: t) (fun op h => .inl h)
      { s.disk with root := some { root with src := src } } rfl (by simp)
    rw [← e] at this; exact this
  | copySrc e h1 => exact inv2_same j e (by simp +contextual) _ rfl (by simp)
  | @patchStart l r t v fp skip root src tools e h1 h2 h3 h4 =>
    exact inv2_same j e (by
      intro op hop
      simp only [List.mem_cons] at hop ⊢
      rcases hop with rfl | h
      · right; right; right; right; right; exact ⟨_, _, rfl⟩
      · left; right; exact h) s.disk rfl (by simp)
  | @patchPart l r t new skip root src tools e h1 h2 =>
    have := inv2_same j e (t' := .patching new skip :: t) (fun op h => .inl h)
      { s.disk with root := some { root with src := src, tools := some tools } } rfl (by simp)
    rw [← e] at this; exact this
  | patch e h1 => exact inv2_same j e (by simp +contextual) _ rfl (by simp)
  | @truncate l r t e =>
    obtain ⟨rfl, rfl, p⟩ := only i hl e
    generalize hx : (Op.truncate :: t : List (Op w)) = x at p
    cases p <;> cases hx
    rename_i v f d
    refine { known := ?_, done := ?_, procs := ?_, plainUse := ?_, used := j.used }
    · intro r hr hne; cases hr; exact absurd rfl hne
    · intro r hr hne; cases hr; exact absurd rfl hne
    · intro t ht op hop
      simp only [List.nil_append, List.mem_singleton] at ht
      subst ht
      exact j.procs (Op.truncate :: [.write v, .use v f true]) (by rw [e]; simp) op (List.mem_cons_of_mem _ hop)
    · intro t ht
      simp only [List.nil_append, List.mem_singleton] at ht
      subst ht
      simp
  | @write l r t v e =>
    obtain ⟨rfl, rfl, p⟩ := only i hl e
    generalize hx : (Op.write v :: t : List (Op w)) = x at p
    cases p <;> cases hx
    rename_i f d
    have hlast := ((j.procs [.write v, .use v f true] (by rw [e]; simp) (.write v) (by simp)).1 v rfl)
    have hf := ((j.procs [.write v, .use v f true] (by rw [e]; simp) (.use v f true) (by simp)).2.1 v f true rfl).1
    subst hf
    refine { known := ?_, done := ?_, procs := ?_, plainUse := ?_, used := j.used }
    · intro r hr _; cases hr
      obtain ⟨x, hx, e⟩ := hlast
      exact ⟨x, List.mem_of_getLast? hx, e⟩
    · intro r hr hne _; cases hr
      refine ⟨d rfl, ?_⟩
      simp only [List.nil_append, List.mem_singleton, forall_eq]
      exact ⟨true, .inr rfl⟩
    · intro t ht op hop
      simp only [List.nil_append, List.mem_singleton] at ht
      subst ht
      exact j.procs (Op.write v :: [.use v {} true]) (by rw [e]; simp) op (List.mem_cons_of_mem _ hop)
    · intro t ht
      simp only [List.nil_append, List.mem_singleton] at ht
      subst ht
      simp
  | @use l r t v f did e =>
    obtain ⟨rfl, rfl, p⟩ := only i hl e
    have hf := ((j.procs (.use v f did :: t) (by rw [e]; simp) (.use v f did) (by simp)).2.1 v f did rfl)
    obtain ⟨rfl, hlast⟩ := hf
    have ht : t = [] ∧ Good w v false s.disk.root := by
      generalize hx : (Op.use v {} did :: t : List (Op w)) = x at p
      cases p <;> cases hx
      · refine ⟨rfl, ?_⟩
        obtain ⟨h1, h2⟩ := j.plainUse [.use v {} false] (by rw [e]; simp) v {} (by simp)
        exact (j.done v h1 h2 hlast).1
      · rename_i d; exact ⟨rfl, d rfl⟩
    obtain ⟨rfl, g⟩ := ht
    refine { known := j.known, done := ?_, procs := ?_, plainUse := ?_, used := ?_ }
    · intro r hr hne hx
      refine ⟨(j.done r hr hne hx).1, ?_⟩
      simp only [List.nil_append, List.mem_singleton, forall_eq]
      simp
    · simp
    · simp
    · intro u hu
      simp only [List.mem_append, List.mem_singleton] at hu
      rcases hu with hu | rfl
      · exact j.used u hu
      · exact g

theorem noReturn_prefix {a b : List (Flags × Str)} (h : a <+: b) (k : NoReturn b) : NoReturn a := by
  obtain ⟨c, rfl⟩ := h
  intro pre x mid y post e
  exact k pre x mid y (post ++ c) (by rw [e]; simp)

theorem plain_prefix {a b : List (Flags × Str)} (h : a <+: b) (k : Plain b) : Plain a :=
  fun x hx => k x (h.subset hx)

theorem plain_keeps {a : List (Flags × Str)} (k : Plain a) : KeepsDir a := by
  intro x hx
  rw [(k x hx).1]
  exact ⟨rfl, rfl⟩

/-- **C66.** Runs one after the other without options for the setup, each interrupted anywhere, any upgrades (no version is
    run again after another one): every GOROOT that is used is good. -/
theorem C66_resume_partial (ok : w.Ok) {s : State w} (h : Alone {} s) (plain : Plain s.log) (nr : NoReturn s.log) (u : Use w)
    (hu : u ∈ s.used) : Good w u.version false u.root := by
  have : Inv2 w s := by
    clear hu
    generalize h0 : ({} : State w) = s0 at h
    induction h with
    | refl => subst h0; exact ⟨by simp, by simp, by simp, by simp, by simp⟩
    | step h1 hs hl ih =>
      subst h0
      have pre := log_step hs
      exact inv2_step (inv_alone ok h1 (plain_keeps (plain_prefix pre plain)))
        (ih (plain_prefix pre plain) (noReturn_prefix pre nr)) (alone_le h1) hl hs plain nr
  exact this.used u hu

/-! ### A run that is not interrupted -/

def good (w : World) (v : Str) (fp : Bool) : Root w :=
  { src := some (w.patch v fp w.src), tools := some (w.build (w.patch v fp w.src)), rest := some w.rest }

theorem Alone.trans {a b c : State w} (h : Alone a b) (h' : Alone b c) : Alone a c := by
  induction h' with
  | refl => exact h
  | step _ hs hl ih => exact .step ih hs hl

/-- From sources that were copied. -/
theorem finish (d : Disk w) (log : List (Flags × Str)) (us : List (Use w)) (f : Flags) (v : Str) (hs : f.skip = false)
    (b : Based w d) (hsrc : ∃ r, d.root = some r ∧ r.src = some w.src) :
    Alone { disk := d, procs := [.patch v f.filePatches f.skip :: tail w v f], log := log, used := us }
      { disk := { root := some (good w v f.filePatches), record := d.record, revision := some v }, procs := [], log := log,
        used := us ++ [{ version := v, flags := f, did := true, root := some (good w v f.filePatches) }] } := by
  obtain ⟨r, t, b1, b2, b3, b4⟩ := b
  obtain ⟨r', c1, c2⟩ := hsrc
  rw [b1] at c1; cases c1
  have h0 : Alone _ _ := Alone.refl (s := { disk := d, procs := [.patch v f.filePatches f.skip :: tail w v f], log := log, used := us })
  have h1 := h0.step (.patchStart (l := []) (r := []) rfl b1 c2 b3 b4) (by simp)
  have h2 := h1.step (.patch (l := []) (r := []) rfl b1) (by simp)
  have h3 := h2.step (.truncate (l := []) (r := []) rfl) (by simp)
  have h4 := h3.step (.write (l := []) (r := []) rfl) (by simp)
  have h5 := h4.step (.use (l := []) (r := []) rfl) (by simp)
  have h6 := h5.step (.kill (l := []) (r := []) rfl) (by simp)
  simp only [hs, b2] at h6
  simpa [good, hs] using h6

theorem complete (ok : w.Ok) (s : State w) (hp : s.procs = []) (hb : s.disk.record = true → Based w s.disk) (f : Flags) (v : Str)
    (h1 : f.reset = false) (h2 : f.delete = false) (h3 : f.skip = false)
    (need : (f.buildCompiler || changed s.disk.revision v || s.disk.root.isNone) = true) :
    Alone s { disk := { root := some (good w v f.filePatches), record := true, revision := some v }, procs := [],
              log := s.log ++ [(f, v)],
              used := s.used ++ [{ version := v, flags := f, did := true, root := some (good w v f.filePatches) }] } := by
  obtain ⟨d, procs, log, us⟩ := s
  simp only at hp hb need
  subst hp
  have hplan : plan f v d = .sync :: .patch v f.filePatches f.skip :: tail w v f := by
    simp only [plan, h1, h2, Bool.false_eq_true, if_false, List.nil_append, Bool.false_or, need, if_true]
    rfl
  have a0 : Alone _ _ := Alone.refl (s := ({ disk := d, procs := [], log := log, used := us } : State w))
  have a1 := a0.step (.spawn f v) (by simp)
  simp only [hplan, List.nil_append] at a1
  by_cases hr : d.record = true
  · obtain ⟨r, t, b1, b2, b3, b4⟩ := hb hr
    have a2 := a1.step (.syncSrc (l := []) (r := []) rfl b1 (by rw [b3]; rfl) hr) (by simp)
    have a3 := a2.step (.copySrc (l := []) (r := []) rfl b1) (by simp)
    refine a3.trans ?_
    have := finish { d with root := some { r with src := some w.src } } (log ++ [(f, v)]) us f v h3
      ⟨_, t, rfl, b2, b3, b4⟩ ⟨_, rfl, rfl⟩
    simpa [hr] using this
  · simp only [Bool.not_eq_true] at hr
    have a2 := a1.step (.syncAll (l := []) (r := []) rfl (.inl hr)) (by simp)
    have a3 := a2.step (.rmRecord (l := []) (r := []) rfl) (by simp)
    have a4 := a3.step (.copyAll (l := []) (r := []) rfl) (by simp)
    have a5 := a4.step (.writeRecord (l := []) (r := []) rfl) (by simp)
    refine a5.trans ?_
    exact finish { d with root := some w.copied, record := true } (log ++ [(f, v)]) us f v h3
      ⟨_, w.tools, rfl, rfl, rfl, ok.1⟩ ⟨_, rfl, rfl⟩

theorem useRun (s : State w) (hp : s.procs = []) (f : Flags) (v : Str)
    (h1 : f.reset = false) (h2 : f.delete = false) (h3 : f.buildCompiler = false)
    (need : (changed s.disk.revision v || s.disk.root.isNone) = false) :
    Alone s { s with log := s.log ++ [(f, v)],
                     used := s.used ++ [{ version := v, flags := f, did := false, root := s.disk.root }] } := by
  obtain ⟨d, procs, log, us⟩ := s
  simp only at hp need
  subst hp
  have hplan : plan f v d = [.use v f false] := by
    simp only [plan, h1, h2, h3, Bool.false_eq_true, if_false, List.nil_append, Bool.false_or, need]
  have a0 : Alone _ _ := Alone.refl (s := ({ disk := d, procs := [], log := log, used := us } : State w))
  have a1 := a0.step (.spawn f v) (by simp)
  simp only [hplan, List.nil_append] at a1
  have a2 := a1.step (.use (l := []) (r := []) rfl) (by simp)
  exact a2.step (.kill (l := []) (r := []) rfl) (by simp)

/-- **C66.** However the runs before were interrupted (none of them removes the directory): with `--build-compiler`, or when
    another version is recorded, a run can be completed and then uses a good GOROOT. -/
theorem C66_recover (ok : w.Ok) {s : State w} (h : Alone {} s) (keep : KeepsDir s.log) (hp : s.procs = []) (v : Str) (f : Flags)
    (hf : f.reset = false ∧ f.delete = false ∧ f.skip = false) (need : f.buildCompiler = true ∨ s.disk.revision ≠ some v) :
    ∃ s' u, Alone s s' ∧ s'.used = s.used ++ [u] ∧ u.version = v ∧ u.did = true ∧ Good w v f.filePatches u.root := by
  refine ⟨_, _, complete ok s hp (inv_alone ok h keep).record f v hf.1 hf.2.1 hf.2.2 ?_, rfl, rfl, rfl, rfl⟩
  rcases need with h | h
  · simp [h]
  · have : changed s.disk.revision v = true := by
      by_cases hc : changed s.disk.revision v = true
      · exact hc
      · exact absurd (not_changed (by simpa using hc)).1 h
    simp [this]

/-- **C66.** A run that is to remove the directory (`setup --delete`) does nothing else, whatever other processes do. -/
theorem C66_delete {s : State w} (h : Steps {} s) (u : Use w) (hu : u ∈ s.used) : u.flags.delete = false := by
  have : (∀ u ∈ s.used, u.flags.delete = false) ∧ ∀ t ∈ s.procs, ∀ v f d, .use v f d ∈ t → f.delete = false := by
    clear hu
    generalize h0 : ({} : State w) = s0 at h
    induction h with
    | refl => subst h0; simp
    | @step a b hs st ih =>
      -- a process that goes on with fewer or other operations
      have go : ∀ (l r : List (List (Op w))) (t t' : List (Op w)), a.procs = l ++ t :: r →
          (∀ v f d, .use v f d ∈ t' → .use v f d ∈ t) →
          ∀ x ∈ l ++ t' :: r, ∀ v f d, .use v f d ∈ x → f.delete = false := by
        intro l r t t' e hsub x hx v f d hu
        simp only [List.mem_append, List.mem_cons] at hx
        rcases hx with hx | rfl | hx
        · exact ih.2 x (by rw [e]; simp [hx]) v f d hu
        · exact ih.2 t (by rw [e]; simp) v f d (hsub v f d hu)
        · exact ih.2 x (by rw [e]; simp [hx]) v f d hu
      cases st with
      | spawn f v =>
        refine ⟨ih.1, ?_⟩
        intro x hx v' f' d hu
        simp only [List.mem_append, List.mem_singleton] at hx
        rcases hx with hx | rfl
        · exact ih.2 x hx v' f' d hu
        · unfold plan at hu
          split at hu
          · simp at hu
          · rename_i hd
            simp only [List.mem_append] at hu
            rcases hu with hu | hu
            · split at hu <;> simp at hu
            · split at hu <;> simp at hu <;> rw [hu.2.1] <;> simpa using hd
      | kill e => exact ⟨ih.1, fun x hx => ih.2 x (by rw [e]; simp only [List.mem_append, List.mem_cons] at hx ⊢; exact hx.imp id .inr)⟩
      | rmDirPart => exact ih
      | rmDir e => exact ⟨ih.1, go _ _ _ _ e (by simp +contextual)⟩
      | syncSrc e => exact ⟨ih.1, go _ _ _ _ e (by simp +contextual)⟩
      | syncAll e => exact ⟨ih.1, go _ _ _ _ e (by simp +contextual)⟩
      | rmRecord e => exact ⟨ih.1, go _ _ _ _ e (by simp +contextual)⟩
      | copyAllPart => exact ih
      | copyAll e => exact ⟨ih.1, go _ _ _ _ e (by simp +contextual)⟩
      | writeRecord e => exact ⟨ih.1, go _ _ _ _ e (by simp +contextual)⟩
      | copySrcPart => exact ih
      | copySrc e => exact ⟨ih.1, go _ _ _ _ e (by simp +contextual)⟩
      | patchStart e => exact ⟨ih.1, go _ _ _ _ e (by simp +contextual)⟩
      | patchPart => exact ih
      | patch e => exact ⟨ih.1, go _ _ _ _ e (by simp +contextual)⟩
      | truncate e => exact ⟨ih.1, go _ _ _ _ e (by simp +contextual)⟩
      | write e => exact ⟨ih.1, go _ _ _ _ e (by simp +contextual)⟩
      | use e =>
        refine ⟨?_, go _ _ _ _ e (by simp +contextual)⟩
        intro u hu
        simp only [List.mem_append, List.mem_singleton] at hu
        rcases hu with hu | rfl
        · exact ih.1 u hu
        · rename_i t v f d
          exact ih.2 (.use v f d :: t) (by rw [e]; exact List.mem_append_right _ List.mem_cons_self) v f d List.mem_cons_self
  exact this.1 u hu

/-! ### What is not prevented -/

/-- Sources are described by who has patched them, programs by the sources they were built from; the rest is complete or not. -/
def W : World where
  Src := Option (Str × Bool)
  Tools := Option (Str × Bool)
  Rest := Bool
  src := none
  tools := none
  rest := true
  patch v fp _ := some (v, fp)
  build s := s
  works _ := true

theorem W_ok : W.Ok := ⟨rfl, fun _ _ => rfl⟩

/-- After the first run of a version. -/
def after (f : Flags) (v : Str) : State W :=
  { disk := { root := some (good W v f.filePatches), record := true, revision := some v }, procs := [], log := [(f, v)],
    used := [{ version := v, flags := f, did := true, root := some (good W v f.filePatches) }] }

theorem first (f : Flags) (v : Str) (h1 : f.reset = false) (h2 : f.delete = false) (h3 : f.skip = false) :
    Alone {} (after f v) := complete W_ok {} rfl (by simp) f v h1 h2 h3 (by simp)

/-- Non-vacuous: a setup that is interrupted while the programs are built, one of the next version that is not, and then a run
    that only uses the GOROOT. -/
example : ∃ s : State W, Alone {} s ∧ Plain s.log ∧ NoReturn s.log ∧
    s.log = [({}, ['1']), ({}, ['2']), ({}, ['2'])] ∧ s.used.map (·.did) = [true, false] := by
  have a0 : Alone _ _ := Alone.refl (s := ({} : State W))
  have a1 := a0.step (.spawn {} ['1']) (by simp)
  have a2 := a1.step (.syncAll (l := []) (r := []) rfl (.inl rfl)) (by simp)
  have a3 := a2.step (.rmRecord (l := []) (r := []) rfl) (by simp)
  have a4 := a3.step (.copyAllPart none (l := []) (r := []) rfl) (by simp)
  have a5 := a4.step (.copyAll (l := []) (r := []) rfl) (by simp)
  have a6 := a5.step (.writeRecord (l := []) (r := []) rfl) (by simp)
  have a7 := a6.step (.patchStart (l := []) (r := []) rfl rfl rfl rfl rfl) (by simp)
  have a8 := a7.step (.patchPart none none (l := []) (r := []) rfl rfl rfl) (by simp)
  have a9 := a8.step (.kill (l := []) (r := []) rfl) (by simp)
  have b := a9.trans (complete W_ok _ rfl (fun _ => ⟨_, none, rfl, rfl, rfl, rfl⟩) {} ['2'] rfl rfl rfl (by decide))
  have c := b.trans (useRun _ rfl {} ['2'] rfl rfl rfl (by decide))
  refine ⟨_, c, ?_, ?_, rfl, rfl⟩
  · intro x hx
    simp only [List.nil_append, List.cons_append, List.mem_cons, List.not_mem_nil, or_false] at hx
    rcases hx with rfl | rfl | rfl <;> exact ⟨rfl, by decide⟩
  · intro pre x mid y post e hxy z hz
    simp only [List.nil_append, List.cons_append] at e
    match pre, mid with
    | [], [] => cases hz
    | [], [_] => simp at e; obtain ⟨rfl, rfl, rfl, -⟩ := e; simp at hxy
    | [], _ :: _ :: _ => simp at e
    | [_], [] => cases hz
    | [_], _ :: _ => simp at e
    | _ :: _ :: _, _ => have := congrArg List.length e; simp at this; omega

/-- Full C66 would be: every GOROOT that is used is good. It fails after an interrupted `--reset-instrument` (or
    `setup --delete`): the removal of the directory may have left the file with the revision. -/
theorem C66_counterexample_reset : ∃ (s : State W) (u : Use W), Alone {} s ∧
    s.log = [({}, ['1']), ({ reset := true }, ['1']), ({}, ['1'])] ∧ u ∈ s.used ∧ u.version = ['1'] ∧
    u.root = some { src := some (some (['1'], false)), tools := some (some (['1'], false)), rest := none } := by
  have a0 := first {} ['1'] rfl rfl rfl
  have a1 := a0.step (.spawn { reset := true } ['1']) (by simp [after])
  have a2 := a1.step (.rmDirPart (some { good W ['1'] false with rest := none }) true (some ['1']) (l := []) (r := []) rfl
    (fun _ => rfl) (.inr rfl)) (by simp [after])
  have a3 := a2.step (.kill (l := []) (r := []) rfl) (by simp)
  have a4 := a3.trans (useRun _ rfl {} ['1'] rfl rfl rfl (by decide))
  exact ⟨_, _, a4, rfl, by simp; right; rfl, rfl, rfl⟩

/-- … and the setup of the next version does not repair it: `full-sync-record.txt` may be left, too. -/
theorem C66_counterexample_resetUpgrade : ∃ (s : State W) (u : Use W), Alone {} s ∧
    s.log = [({}, ['1']), ({ reset := true }, ['1']), ({}, ['2'])] ∧ u ∈ s.used ∧ u.version = ['2'] ∧ u.did = true ∧
    ¬ Good W ['2'] false u.root := by
  have a0 := first {} ['1'] rfl rfl rfl
  have a1 := a0.step (.spawn { reset := true } ['1']) (by simp [after])
  have a2 := a1.step (.rmDirPart (some { good W ['1'] false with rest := none }) true (some ['1']) (l := []) (r := []) rfl
    (fun _ => rfl) (.inr rfl)) (by simp [after])
  have a3 := a2.step (.kill (l := []) (r := []) rfl) (by simp)
  have a4 := a3.step (.spawn {} ['2']) (by simp)
  have a5 := a4.step (.syncSrc (l := []) (r := []) rfl rfl rfl rfl) (by simp)
  have a6 := a5.step (.copySrc (l := []) (r := []) rfl rfl) (by simp)
  have a7 := a6.step (.patchStart (l := []) (r := []) rfl rfl rfl rfl rfl) (by simp)
  have a8 := a7.step (.patch (l := []) (r := []) rfl rfl) (by simp)
  have a9 := a8.step (.truncate (l := []) (r := []) rfl) (by simp)
  have a10 := a9.step (.write (l := []) (r := []) rfl) (by simp)
  have a11 := a10.step (.use (l := []) (r := []) rfl) (by simp)
  refine ⟨_, _, a11, rfl, by simp; right; rfl, rfl, rfl, ?_⟩
  simp [Good, good]

/-- After an interrupted upgrade the version before uses the GOROOT as it was left: its revision is still recorded. -/
theorem C66_counterexample_downgrade : ∃ (s : State W) (u : Use W), Alone {} s ∧ Plain s.log ∧
    s.log.map (·.2) = [['1'], ['2'], ['1']] ∧ u ∈ s.used ∧ u.version = ['1'] ∧
    u.root = some { src := some (some (['2'], false)), tools := some (some (['1'], false)), rest := some true } := by
  have a0 := first {} ['1'] rfl rfl rfl
  have a1 := a0.step (.spawn {} ['2']) (by simp [after])
  have a2 := a1.step (.syncSrc (l := []) (r := []) rfl rfl rfl rfl) (by simp)
  have a3 := a2.step (.copySrc (l := []) (r := []) rfl rfl) (by simp)
  have a4 := a3.step (.patchStart (l := []) (r := []) rfl rfl rfl rfl rfl) (by simp)
  have a5 := a4.step (.patchPart (some (some (['2'], false))) (some (['1'], false)) (l := []) (r := []) rfl rfl rfl) (by simp)
  have a6 := a5.step (.kill (l := []) (r := []) rfl) (by simp)
  have a7 := a6.trans (useRun _ rfl {} ['1'] rfl rfl rfl (by decide))
  refine ⟨_, _, a7, ?_, rfl, by simp; right; rfl, rfl, rfl⟩
  intro x hx
  simp only [after, List.nil_append, List.cons_append, List.mem_cons, List.not_mem_nil, or_false] at hx
  rcases hx with rfl | rfl | rfl <;> exact ⟨rfl, by decide⟩

/-- An interrupted `--build-compiler`: the next run uses the GOROOT as it was left. -/
theorem C66_counterexample_buildCompiler : ∃ (s : State W) (u : Use W), Alone {} s ∧ KeepsDir s.log ∧
    s.log = [({}, ['1']), ({ buildCompiler := true }, ['1']), ({}, ['1'])] ∧ u ∈ s.used ∧ u.version = ['1'] ∧
    ¬ Good W ['1'] false u.root := by
  have a0 := first {} ['1'] rfl rfl rfl
  have a1 := a0.step (.spawn { buildCompiler := true } ['1']) (by simp [after])
  have a2 := a1.step (.syncSrc (l := []) (r := []) rfl rfl rfl rfl) (by simp)
  have a3 := a2.step (.copySrcPart none (l := []) (r := []) rfl rfl) (by simp)
  have a4 := a3.step (.kill (l := []) (r := []) rfl) (by simp)
  have a5 := a4.trans (useRun _ rfl {} ['1'] rfl rfl rfl (by decide))
  refine ⟨_, _, a5, ?_, rfl, by simp; right; rfl, rfl, ?_⟩
  · intro x hx
    simp only [after, List.nil_append, List.cons_append, List.mem_cons, List.not_mem_nil, or_false] at hx
    rcases hx with rfl | rfl | rfl <;> exact ⟨rfl, rfl⟩
  · simp [Good, good]

/-- `setup --skip-rebuild-compiler-and-go` is recorded as a complete setup. -/
theorem C66_counterexample_skip : ∃ (s : State W) (u : Use W), Alone {} s ∧
    s.log = [({ skip := true }, ['1']), ({}, ['1'])] ∧ u ∈ s.used ∧ u.flags = {} ∧ u.version = ['1'] ∧
    u.root = some { src := some (some (['1'], false)), tools := some none, rest := some true } := by
  have a0 : Alone _ _ := Alone.refl (s := ({} : State W))
  have a1 := a0.step (.spawn { skip := true } ['1']) (by simp)
  have a2 := a1.step (.syncAll (l := []) (r := []) rfl (.inl rfl)) (by simp)
  have a3 := a2.step (.rmRecord (l := []) (r := []) rfl) (by simp)
  have a4 := a3.step (.copyAll (l := []) (r := []) rfl) (by simp)
  have a5 := a4.step (.writeRecord (l := []) (r := []) rfl) (by simp)
  have a6 := a5.step (.patchStart (l := []) (r := []) rfl rfl rfl rfl rfl) (by simp)
  have a7 := a6.step (.patch (l := []) (r := []) rfl rfl) (by simp)
  have a8 := a7.step (.truncate (l := []) (r := []) rfl) (by simp)
  have a9 := a8.step (.write (l := []) (r := []) rfl) (by simp)
  have a10 := a9.step (.kill (l := []) (r := []) rfl) (by simp)
  have a11 := a10.trans (useRun _ rfl {} ['1'] rfl rfl rfl (by decide))
  exact ⟨_, _, a11, rfl, by simp; rfl, rfl, rfl, rfl⟩

/-- The value of `--use-file-patches` is not recorded: a run with it uses the GOROOT of a run without. -/
theorem C66_counterexample_filePatches : ∃ (s : State W) (u : Use W), Alone {} s ∧ KeepsDir s.log ∧
    s.log = [({}, ['1']), ({ filePatches := true }, ['1'])] ∧ u ∈ s.used ∧ u.flags.filePatches = true ∧
    ¬ Good W ['1'] true u.root ∧ Good W ['1'] false u.root := by
  have a0 := first {} ['1'] rfl rfl rfl
  have a1 := a0.trans (useRun _ rfl { filePatches := true } ['1'] rfl rfl rfl (by decide))
  refine ⟨_, _, a1, ?_, rfl, by simp [after]; right; rfl, rfl, ?_, ?_⟩
  · intro x hx
    simp only [after, List.cons_append, List.nil_append, List.mem_cons, List.not_mem_nil, or_false] at hx
    rcases hx with rfl | rfl <;> exact ⟨rfl, rfl⟩
  · simp [Good, good, W]
  · simp [Good, good]

/-- Two processes at the same time, both of the same version and without options: there is no lock, so that the GOROOT one of
    them has set up is used while the other one copies to it. -/
theorem C66_counterexample_concurrent : ∃ (s : State W) (u : Use W), Steps {} s ∧
    s.log = [({}, ['1']), ({}, ['1'])] ∧ u ∈ s.used ∧ u.version = ['1'] ∧ u.did = true ∧ u.root = none := by
  have a0 : Steps _ _ := Steps.refl (s := ({} : State W))
  have a1 := a0.step (.spawn {} ['1'])
  have a2 := a1.step (.spawn {} ['1'])
  have a3 := a2.step (.syncAll (l := []) rfl (.inl rfl))
  have a4 := a3.step (.rmRecord (l := []) rfl)
  have b1 := a4.step (.syncAll (l := [_]) (r := []) rfl (.inl rfl))
  have b2 := b1.step (.rmRecord (l := [_]) (r := []) rfl)
  have a5 := b2.step (.copyAll (l := []) rfl)
  have a6 := a5.step (.writeRecord (l := []) rfl)
  have a7 := a6.step (.patchStart (l := []) rfl rfl rfl rfl rfl)
  have a8 := a7.step (.patch (l := []) rfl rfl)
  have a9 := a8.step (.truncate (l := []) rfl)
  have a10 := a9.step (.write (l := []) rfl)
  have b3 := a10.step (.copyAllPart none (l := [_]) (r := []) rfl)
  have a11 := b3.step (.use (l := []) rfl)
  exact ⟨_, _, a11, rfl, by simp; rfl, rfl, rfl, rfl⟩

end Verif.Cmd.Setup
