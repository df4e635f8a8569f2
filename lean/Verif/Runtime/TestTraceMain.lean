/-
C95: the traces that tests leave behind.
-/
import Verif.Runtime.TestTraceProps
import Verif.Cmd.VendorProps

namespace Verif.Runtime.TestTrace
open Spec
open Verif.Cmd.GoMod (Path isAbs clean cleanStep abs dir abs_clean abs_dir fold_ordinary fold_true)
open Verif.Cmd.GoMod.Spec (Ordinary)
open Verif.Cmd.Vendor (split splitFrom)
open Verif.Support.GetGo (FS Node mkdirAll mkdir_root isAbs_append)

/-! ### Paths -/

theorem splitFrom_last {sep : Char} {t : Str} (ht : sep ∉ t) : ∀ (n w : Str), ∃ a b, splitFrom sep w (n ++ t) = a ++ [b ++ t] := by
  intro n
  induction n with
  | nil =>
    intro w
    refine ⟨[], w, ?_⟩
    show splitFrom sep w t = [w ++ t]
    induction t generalizing w with
    | nil => rw [splitFrom, List.append_nil]
    | cons c t ih =>
      have hc : c ≠ sep := fun e => ht (by rw [e]; exact List.mem_cons_self)
      rw [splitFrom, if_neg hc, ih (fun h => ht (List.mem_cons_of_mem _ h))]
      simp
  | cons c n ih =>
    intro w
    rw [List.cons_append, splitFrom]
    split
    · obtain ⟨a, b, h⟩ := ih []
      exact ⟨w :: a, b, by rw [h]; rfl⟩
    · exact ih _

theorem json_chars : ".json".toList = ['.', 'j', 's', 'o', 'n'] := by decide

theorem parts_last (n : Str) : ∃ a x, parts n = a ++ [x] ∧ Ordinary x := by
  obtain ⟨a, b, h⟩ := splitFrom_last (sep := '/') (t := ".json".toList) (by decide) n []
  refine ⟨a, b ++ ".json".toList, h, ?_⟩
  have hl : (b ++ ".json".toList).length = b.length + 5 := by rw [List.length_append]; rfl
  refine ⟨?_, ?_, ?_⟩ <;> intro e <;> have := congrArg List.length e <;> rw [hl] at this
  · simp at this
  · have h1 : ".".toList.length = 1 := by decide
    omega
  · have h1 : "..".toList.length = 2 := by decide
    omega

theorem parts_ne (n : Str) : parts n ≠ [] := by
  obtain ⟨a, x, h, _⟩ := parts_last n
  rw [h]; simp

theorem clean_last {q : Path} {x : Str} (hx : Ordinary x) (h : isAbs (q ++ [x]) = true ∨ isAbs (q ++ [x]) = false) : ∃ q', clean (q ++ [x]) = q' ++ [x] := by
  have hl : ∀ a, (q ++ [x]).foldl (cleanStep a) [] = q.foldl (cleanStep a) [] ++ [x] := by
    intro a
    rw [List.foldl_append]
    exact fold_ordinary [x] (by intro y hy; rw [List.mem_singleton.1 hy]; exact hx) _
  unfold clean
  rw [hl]
  dsimp only
  have hne : ¬ (q.foldl (cleanStep (isAbs (q ++ [x]))) [] ++ [x] = []) := by simp
  rw [if_neg hne, if_neg hne]
  rcases h with h | h <;> rw [h]
  · exact ⟨[] :: q.foldl (cleanStep true) [], rfl⟩
  · exact ⟨q.foldl (cleanStep false) [], rfl⟩

theorem outPath_last (d : Path) (n : Str) : ∃ q x, Ordinary x ∧ outPath d n = q ++ [x] := by
  obtain ⟨a, x, h, hx⟩ := parts_last n
  have h' : split '/' (n ++ ".json".toList) = a ++ [x] := h
  unfold outPath
  rw [h']
  dsimp only
  split
  · obtain ⟨q, hq⟩ := clean_last (q := a) hx (by cases isAbs (a ++ [x]) <;> simp)
    exact ⟨q, x, hx, hq⟩
  · rw [← List.append_assoc]
    obtain ⟨q, hq⟩ := clean_last (q := d ++ a) hx (by cases isAbs (d ++ a ++ [x]) <;> simp)
    exact ⟨q, x, hx, hq⟩

/-- Where the directory that is made is. -/
theorem outPath_dir {cwd : List Str} (hc : ∀ x ∈ cwd, Ordinary x) (d : Path) (n : Str) :
    abs cwd (dir (outPath d n)) = (abs cwd (outPath d n)).dropLast ∧ abs cwd (outPath d n) ≠ [] := by
  obtain ⟨q, x, hx, h⟩ := outPath_last d n
  rw [h, abs_dir hc q hx, List.dropLast_concat]
  exact ⟨rfl, by simp⟩

/-- The trace of a test whose name has proper parts is `<dir>/<name>.json`. -/
theorem C95_place {cwd : List Str} (hc : ∀ x ∈ cwd, Ordinary x) {d : Path} (hd : d ≠ []) {n : Str} (hn : ∀ x ∈ parts n, Ordinary x) :
    abs cwd (outPath d n) = place cwd d n := by
  have hp : split '/' (n ++ ".json".toList) = parts n := rfl
  have hpn : isAbs (parts n) = false := by
    match hq : parts n with
    | [] => rfl
    | [a] => rfl
    | a :: b :: r =>
      show (a == []) = false
      exact beq_eq_false_iff_ne.2 (hn a (by rw [hq]; simp)).1
  unfold outPath place
  rw [hp]
  dsimp only
  by_cases h : d = [[]]
  · rw [if_pos h, abs_clean hc, abs, hpn]
    simp only [Bool.false_eq_true, if_false]
    rw [List.foldl_append, fold_ordinary cwd hc, List.nil_append, fold_ordinary _ hn]
    have : abs cwd d = cwd := by
      rw [h, abs]
      have : isAbs [([] : Str)] = false := rfl
      rw [this]
      simp only [Bool.false_eq_true, if_false]
      rw [List.foldl_append, fold_ordinary cwd hc]
      show cleanStep true _ [] = _
      unfold cleanStep
      rw [if_pos (.inl rfl)]; rfl
    rw [this]
  · rw [if_neg h, abs_clean hc, abs, isAbs_append hd h, abs]
    split
    · rw [List.foldl_append, fold_ordinary _ hn]
    · rw [← List.append_assoc, List.foldl_append, fold_ordinary _ hn]

def unsplit : List Str → Str
  | [] => []
  | [a] => a
  | a :: b :: r => a ++ '/' :: unsplit (b :: r)

theorem splitFrom_ne (sep : Char) : ∀ (s w : Str), splitFrom sep w s ≠ [] := by
  intro s
  induction s with
  | nil => intro w; simp [splitFrom]
  | cons c s ih => intro w; rw [splitFrom]; split; simp; exact ih _

theorem unsplit_split : ∀ (s w : Str), unsplit (splitFrom '/' w s) = w ++ s := by
  intro s
  induction s with
  | nil => intro w; rw [splitFrom, unsplit, List.append_nil]
  | cons c s ih =>
    intro w
    rw [splitFrom]
    split
    · rename_i h
      cases hq : splitFrom '/' [] s with
      | nil => exact absurd hq (splitFrom_ne _ _ _)
      | cons b r =>
        rw [unsplit, ← hq, ih, h]; rfl
    · rw [ih]; simp

/-- Tests with different names have different files. -/
theorem C95_distinct (cwd : List Str) (d : Path) {n m : Str} (h : place cwd d n = place cwd d m) : n = m := by
  have h1 : parts n = parts m := List.append_cancel_left h
  have h2 : unsplit (parts n) = unsplit (parts m) := by rw [h1]
  unfold parts split at h2
  rw [unsplit_split, unsplit_split, List.nil_append, List.nil_append] at h2
  exact List.append_cancel_right h2

/-! ### Writing -/

theorem mkdir_some : ∀ (r : List Str) (fs : FS) (cur : List Str), (∀ a, a ≠ [] → a <+: r → fs (cur ++ a) = none ∨ fs (cur ++ a) = some .dir) →
    ∃ fs', mkdirAll fs cur r = some fs' := by
  intro r
  induction r with
  | nil => intro fs cur _; exact ⟨fs, rfl⟩
  | cons x r ih =>
    intro fs cur h
    rw [mkdirAll]
    have hx := h [x] (by simp) (List.cons_prefix_cons.2 ⟨rfl, List.nil_prefix⟩)
    have hr : ∀ a, a ≠ [] → a <+: r → fs (cur ++ [x] ++ a) = none ∨ fs (cur ++ [x] ++ a) = some .dir := by
      intro a h1 h2
      rw [List.append_assoc]
      exact h (x :: a) (by simp) (List.cons_prefix_cons.2 ⟨rfl, h2⟩)
    rcases hx with hx | hx <;> rw [hx] <;> dsimp only
    · apply ih
      intro a h1 h2
      have hne : cur ++ [x] ++ a ≠ cur ++ [x] := by
        intro e
        have := congrArg List.length e
        simp at this
        exact h1 this
      show (if _ then _ else _) = _ ∨ (if _ then _ else _) = _
      rw [if_neg hne]
      exact hr a h1 h2
    · exact ih _ _ hr

theorem writeFile_some {fs fs' : FS} {p : List Str} {c : Str} (h : writeFile fs p c = some fs') : fs' = fs.put p (.file c) := by
  unfold writeFile at h
  split at h
  · cases h; rfl
  · cases h

theorem not_prefix_dropLast {q : List Str} (h : q ≠ []) : ¬ q <+: q.dropLast := by
  intro h1
  have := h1.length_le
  rw [List.length_dropLast] at this
  have := List.length_pos_iff.2 h
  omega

theorem prefix_cases {p q : List Str} (h : p <+: q) : p = q ∨ p <+: q.dropLast := by
  rcases List.eq_nil_or_concat q with rfl | ⟨b, y, rfl⟩
  · left; exact List.prefix_nil.1 h
  · rw [List.concat_eq_append] at h ⊢
    rw [List.dropLast_concat]
    rcases List.prefix_concat_iff.1 h with h | h
    · exact .inl h
    · exact .inr h

theorem saveTest_spec {cf : Conf} {s : State} (hc : ∀ x ∈ s.cwd, Ordinary x) (n : Str) (tr : List (Bool × Nat)) :
    (∀ p, ¬ p <+: abs s.cwd (outPath cf.dir n) → (s.saveTest cf n tr).fs p = s.fs p) ∧
    (∀ p x, p ≠ abs s.cwd (outPath cf.dir n) → s.fs p = some (.file x) → (s.saveTest cf n tr).fs p = some (.file x)) ∧
    (Free s.fs (abs s.cwd (outPath cf.dir n)) →
      (s.saveTest cf n tr).fs (abs s.cwd (outPath cf.dir n)) = some (.file (cf.json tr)) ∧
      (∀ a, a ≠ [] → a <+: (abs s.cwd (outPath cf.dir n)).dropLast → (s.saveTest cf n tr).fs a = some .dir) ∧
      (s.saveTest cf n tr).errs = s.errs) ∧
    (Tree s.fs → ¬ Free s.fs (abs s.cwd (outPath cf.dir n)) → (s.saveTest cf n tr).errs = s.errs + 1 ∧
      ∀ p x, s.fs p = some (.file x) → (s.saveTest cf n tr).fs p = some (.file x)) := by
  obtain ⟨hd, hne⟩ := outPath_dir hc cf.dir n
  unfold State.saveTest
  dsimp only
  rw [hd]
  generalize abs s.cwd (outPath cf.dir n) = q at hd hne ⊢
  have hmk : ∀ fs1, fs1 = (mkdirAll s.fs [] q.dropLast).getD s.fs → (∀ p, ¬ p <+: q.dropLast → fs1 p = s.fs p) ∧
      ∀ p x, s.fs p = some (.file x) → fs1 p = some (.file x) := by
    intro fs1 e
    cases hm : mkdirAll s.fs [] q.dropLast with
    | none => rw [hm] at e; rw [e]; exact ⟨fun _ _ => rfl, fun _ _ h => h⟩
    | some fs2 =>
      rw [hm] at e
      have e : fs1 = fs2 := e
      subst e
      obtain ⟨h1, h2⟩ := mkdir_root hm
      refine ⟨fun p hp => h2 p (.inr hp), fun p x hp => ?_⟩
      by_cases hq : p ≠ [] ∧ p <+: q.dropLast
      · rcases (h1 p hq.1 hq.2).2 with h | h <;> rw [hp] at h <;> cases h
      · rw [h2 p ?_]
        · exact hp
        · by_cases hp0 : p = []
          · exact .inl hp0
          · exact .inr fun h => hq ⟨hp0, h⟩
  generalize hfs1 : (mkdirAll s.fs [] q.dropLast).getD s.fs = fs1
  obtain ⟨k1, k2⟩ := hmk fs1 hfs1.symm
  have hsub : ∀ {p}, ¬ p <+: q → ¬ p <+: q.dropLast ∧ p ≠ q := by
    intro p hp
    exact ⟨fun h => hp (h.trans (List.dropLast_prefix _)), fun h => hp (h ▸ List.prefix_rfl)⟩
  refine ⟨?_, ?_, ?_, ?_⟩
  · intro p hp
    obtain ⟨p1, p2⟩ := hsub hp
    split
    · rename_i fs2 hw
      rw [writeFile_some hw]
      show (if _ then _ else _) = _
      rw [if_neg p2]; exact k1 p p1
    · exact k1 p p1
  · intro p x hp hf
    split
    · rename_i fs2 hw
      rw [writeFile_some hw]
      show (if _ then _ else _) = _
      rw [if_neg hp]; exact k2 p x hf
    · exact k2 p x hf
  · intro hfree
    obtain ⟨fs2, hm⟩ := mkdir_some q.dropLast s.fs [] (fun a h1 h2 => hfree.1 a h1 h2)
    rw [hm] at hfs1
    have e : fs2 = fs1 := hfs1
    subst e
    obtain ⟨h1, h2⟩ := mkdir_root hm
    have hw : writeFile fs2 q (cf.json tr) = some (fs2.put q (.file (cf.json tr))) := by
      unfold writeFile
      rw [if_pos]
      refine ⟨hne, ?_, ?_⟩
      · by_cases h0 : q.dropLast = []
        · exact .inl h0
        · exact .inr (h1 _ h0 List.prefix_rfl).1
      · rw [k1 q (not_prefix_dropLast hne)]; exact hfree.2
    rw [hw]
    refine ⟨if_pos rfl, fun a ha1 ha2 => ?_, rfl⟩
    show (if _ then _ else _) = _
    rw [if_neg (fun (e : a = q) => not_prefix_dropLast hne (by rw [e] at ha2; exact ha2))]
    exact (h1 a ha1 ha2).1
  · intro htree hfree
    have hw : writeFile fs1 q (cf.json tr) = none := by
      unfold writeFile
      rw [if_neg]
      rintro ⟨_, w1, w2⟩
      rw [k1 q (not_prefix_dropLast hne)] at w2
      apply hfree
      refine ⟨fun a ha1 ha2 => ?_, w2⟩
      cases hm : mkdirAll s.fs [] q.dropLast with
      | some fs2 => exact ((mkdir_root hm).1 a ha1 ha2).2
      | none =>
        rw [hm] at hfs1
        have e : s.fs = fs1 := hfs1
        rw [← e] at w1
        rcases w1 with w1 | w1
        · rw [w1] at ha2; exact absurd (List.prefix_nil.1 ha2) ha1
        · by_cases hae : a = q.dropLast
          · rw [hae]; exact .inr w1
          · exact .inr (htree _ (by rw [w1]; simp) a ha1 hae ha2)
    rw [hw]
    exact ⟨rfl, k2⟩

theorem saveTrace_spec {cf : Conf} {s : State} (k : Cfg) (tr : List (Bool × Nat)) :
    (∀ p, (k.out = [[]] ∨ p ≠ abs s.cwd k.out) → (s.saveTrace cf k tr).fs p = s.fs p) ∧
    (s.saveTrace cf k tr).finished = (if k.onFinish then s.finished ++ [tr] else s.finished) ∧
    (k.out ≠ [[]] → abs s.cwd k.out ≠ [] → ((abs s.cwd k.out).dropLast = [] ∨ s.fs (abs s.cwd k.out).dropLast = some .dir) →
      s.fs (abs s.cwd k.out) ≠ some .dir → (s.saveTrace cf k tr).fs (abs s.cwd k.out) = some (.file (cf.json tr))) := by
  have hx : ∀ s1 : State, s1.fs = s.fs → s1.cwd = s.cwd → 
      let r := (if k.out = [[]] then s1
        else match writeFile s1.fs (abs s1.cwd k.out) (cf.json tr) with
          | some fs2 => { s1 with fs := fs2 }
          | none => { s1 with errs := s1.errs + 1 } : State)
      (∀ p, (k.out = [[]] ∨ p ≠ abs s.cwd k.out) → r.fs p = s.fs p) ∧ r.finished = s1.finished ∧
      (k.out ≠ [[]] → abs s.cwd k.out ≠ [] → ((abs s.cwd k.out).dropLast = [] ∨ s.fs (abs s.cwd k.out).dropLast = some .dir) →
        s.fs (abs s.cwd k.out) ≠ some .dir → r.fs (abs s.cwd k.out) = some (.file (cf.json tr))) := by
    intro s1 e1 e2
    rw [e1, e2]
    by_cases ho : k.out = [[]]
    · rw [if_pos ho]
      exact ⟨fun p _ => by rw [e1], rfl, fun h => absurd ho h⟩
    · rw [if_neg ho]
      refine ⟨?_, ?_, ?_⟩
      · intro p hp
        rcases hp with hp | hp
        · exact absurd hp ho
        · cases hw : writeFile s.fs (abs s.cwd k.out) (cf.json tr) with
          | none => rfl
          | some fs2 =>
            rw [writeFile_some hw]
            show (if _ then _ else _) = _
            rw [if_neg hp]
      · cases writeFile s.fs (abs s.cwd k.out) (cf.json tr) <;> rfl
      · intro _ h1 h2 h3
        have hw : writeFile s.fs (abs s.cwd k.out) (cf.json tr) = some (s.fs.put (abs s.cwd k.out) (.file (cf.json tr))) := by
          unfold writeFile; rw [if_pos ⟨h1, h2, h3⟩]
        rw [hw]
        exact if_pos rfl
  unfold State.saveTrace
  dsimp only
  by_cases hf : k.onFinish = true
  · rw [if_pos hf, if_pos hf]
    exact hx _ rfl rfl
  · rw [if_neg hf, if_neg hf]
    exact hx _ rfl rfl

/-! ### The trace of a test -/

theorem born_left {a b : List Event} (h : Born (a ++ b)) : Born a := fun x p c y e => h x p c (y ++ b) (by rw [e]; simp)

/-- A goroutine that has acted is not started any more. -/
theorem no_child {pre mid : List Event} {g : Gid} {c : Call} (hb : Born (pre ++ .enter g c :: mid)) : ∀ e ∈ mid, child e ≠ some g := by
  intro e he hc
  cases e with
  | spawn p x =>
    obtain ⟨l, r, rfl⟩ := List.append_of_mem he
    have := (hb (pre ++ .enter g c :: l) p x r (by simp)).2 (.enter g c) (by simp)
    exact this (Option.some.inj hc).symm
  | _ => cases hc

theorem own_new {s : State} (hb : Below s) (g : Gid) {s' : State} (hn : s.next < s'.next) (h : ∀ g', g' ≠ g → s'.att g' = s.att g' ∧ s'.frames g' = s.frames g') :
    Own s' s.next g := by
  refine ⟨hn, fun g' hg => ?_⟩
  obtain ⟨h1, h2⟩ := h g' hg
  rw [h1, h2]
  refine ⟨fun e => absurd ((hb g').1 _ e) (Nat.lt_irrefl _), fun f hf e => absurd ((hb g').2 f hf _ e) (Nat.lt_irrefl _)⟩

theorem win_test {cf : Conf} {s : State} (hb : Below s) {g : Gid} {c : Call} {n : Str} (hcol : cf.collect = true) (ht : IsTest c n) (ha : s.att g = none) :
    Win (s.step cf (.enter g c)) g s.next none (s.cfg s.next) [] [(true, c.fn)] (⟨c.fn, some s.next, some (.test n)⟩ :: s.frames g) := by
  have he : s.enter cf g c = ({ s with att := upd s.att g (some s.next), next := s.next + 1, started := upd s.started s.next true, filter := upd s.filter s.next none, log := upd s.log s.next [] } : State).record g s.next c.fn (some (.test n)) := by
    unfold State.enter
    rw [ha]
    dsimp only
    rw [begins_test hcol ht]
    dsimp only
    unfold State.begin
    dsimp only
    rw [if_pos (by rw [upd_same]; rfl)]
  have hother : ∀ g', g' ≠ g → (s.enter cf g c).att g' = s.att g' ∧ (s.enter cf g c).frames g' = s.frames g' := fun g' h => enter_other cf s c h
  show Win (s.enter cf g c) _ _ _ _ _ _ _
  refine ⟨?_, ?_, ?_, ?_, ?_, ?_, own_new hb g ?_ hother⟩ <;> rw [he]
  · exact upd_same _ _ _
  · exact upd_same _ _ _
  · exact upd_same _ _ _
  · rfl
  · exact upd_same _ _ _
  · show upd _ _ _ _ = _
    rw [upd_same]
    show upd _ _ _ _ ++ _ = _
    rw [upd_same]; rfl
  · exact Nat.lt_succ_self _

theorem keptBy_none (r : List (Bool × Nat)) : keptBy none r = r := List.filter_eq_self.2 fun _ _ => rfl

/-- The state just before a test ends. -/
theorem test_window {cf : Conf} (hcol : cf.collect = true) (cwd : List Str) (fs : FS) {pre mid : List Event} {g : Gid} {c : Call} {n : Str} {r : List (Bool × Nat)} {o : List Nat}
    (hb : Born (pre ++ .enter g c :: mid)) (ht : IsTest c n) (hu : Untouched cf.raceSafe pre.reverse g) (hc : calls g mid [] = some (r, o)) :
    Win ((State.init cwd fs).run cf (pre ++ .enter g c :: mid)) g ((State.init cwd fs).run cf pre).next none
      (((State.init cwd fs).run cf pre).cfg ((State.init cwd fs).run cf pre).next) o ((true, c.fn) :: r)
      (⟨c.fn, some ((State.init cwd fs).run cf pre).next, some (.test n)⟩ :: ((State.init cwd fs).run cf pre).frames g) := by
  rw [run_append, run_cons]
  have ha := untouched_none cf cwd fs pre.reverse g (by rw [List.reverse_reverse]; exact born_left hb) hu
  rw [List.reverse_reverse] at ha
  have hw := win_run (cf := cf) mid (win_test (cf := cf) (below_run (cf := cf) pre (below_init cwd fs)) hcol ht ha) hc (no_child hb)
  rw [keptBy_none] at hw
  exact hw

theorem exit_test {cf : Conf} {s : State} {g : Gid} {i : Nat} {fn : Nat} {n : Str} {rest : List Frame} (hf : s.frames g = ⟨fn, some i, some (.test n)⟩ :: rest) :
    s.exit cf g = { ({ s with frames := upd s.frames g rest, log := upd s.log i (s.log i ++ [(false, fn)]) } : State).saveTest cf n (s.log i ++ [(false, fn)]) with att := upd s.att g none } := by
  unfold State.exit
  rw [hf]
  dsimp only
  rw [upd_same]

/-- The trace of a test. Goroutine `g`, on which nothing had been registered before, runs a test; when the test ends, however it ends, its trace is in
    `<dir>/<name>.json`, and it has every instrumented call that the goroutine made during the test, whatever other goroutines did meanwhile.
    Directories are made where necessary; no other file or directory is touched. -/
theorem C95_file_partial (cf : Conf) (hcol : cf.collect = true) (hd : cf.dir ≠ []) (cwd : List Str) (fs : FS) (pre mid : List Event) (g : Gid) (c : Call) (n : Str)
    (r : List (Bool × Nat)) (hb : Born (pre ++ .enter g c :: mid)) (hg : GoodCwd cwd (pre ++ .enter g c :: mid)) (ht : IsTest c n)
    (hn : ∀ x ∈ parts n, Ordinary x) (hu : Untouched cf.raceSafe pre.reverse g) (hc : calls g mid [] = some (r, [])) :
    let s := (State.init cwd fs).run cf (pre ++ .enter g c :: mid)
    let s' := s.step cf (.exit g)
    let q := place (cwdAfter cwd (pre ++ .enter g c :: mid)) cf.dir n
    Free s.fs q →
      s'.fs q = some (.file (cf.json ((true, c.fn) :: r ++ [(false, c.fn)]))) ∧ (∀ a, a ≠ [] → a <+: q.dropLast → s'.fs a = some .dir) ∧
      (∀ p, ¬ p <+: q → s'.fs p = s.fs p) ∧ s'.errs = s.errs := by
  intro s s' q hfree
  have hw := test_window hcol cwd fs hb ht hu hc
  have hcwd : s.cwd = cwdAfter cwd (pre ++ .enter g c :: mid) := cwd_run cf _ _
  have hgood : ∀ x ∈ s.cwd, Ordinary x := by rw [hcwd]; exact cwdAfter_good hg
  have hq : abs s.cwd (outPath cf.dir n) = q := by rw [C95_place hgood hd hn, hcwd]
  have he : s' = _ := exit_test (cf := cf) hw.frames
  rw [he, hw.log]
  have hspec := saveTest_spec (cf := cf) (s := { s with frames := upd s.frames g (((State.init cwd fs).run cf pre).frames g), log := upd s.log ((State.init cwd fs).run cf pre).next (((true, c.fn) :: r) ++ [(false, c.fn)]) }) hgood n (((true, c.fn) :: r) ++ [(false, c.fn)])
  dsimp only at hspec
  rw [hq] at hspec
  obtain ⟨h1, _, h3, _⟩ := hspec
  obtain ⟨h3, h4, h5⟩ := h3 hfree
  exact ⟨h3, h4, h1, h5⟩

/-- If the file cannot be written there is a message, and all files are as before. -/
theorem C95_failed (cf : Conf) (hcol : cf.collect = true) (hd : cf.dir ≠ []) (cwd : List Str) (fs : FS) (pre mid : List Event) (g : Gid) (c : Call) (n : Str)
    (r : List (Bool × Nat)) (hb : Born (pre ++ .enter g c :: mid)) (hg : GoodCwd cwd (pre ++ .enter g c :: mid)) (ht : IsTest c n)
    (hn : ∀ x ∈ parts n, Ordinary x) (hu : Untouched cf.raceSafe pre.reverse g) (hc : calls g mid [] = some (r, [])) :
    let s := (State.init cwd fs).run cf (pre ++ .enter g c :: mid)
    let s' := s.step cf (.exit g)
    Tree s.fs → ¬ Free s.fs (place (cwdAfter cwd (pre ++ .enter g c :: mid)) cf.dir n) →
      s'.errs = s.errs + 1 ∧ ∀ p x, s.fs p = some (.file x) → s'.fs p = some (.file x) := by
  intro s s' htree hfree
  have hw := test_window hcol cwd fs hb ht hu hc
  have hcwd : s.cwd = cwdAfter cwd (pre ++ .enter g c :: mid) := cwd_run cf _ _
  have hgood : ∀ x ∈ s.cwd, Ordinary x := by rw [hcwd]; exact cwdAfter_good hg
  have hq : abs s.cwd (outPath cf.dir n) = place (cwdAfter cwd (pre ++ .enter g c :: mid)) cf.dir n := by rw [C95_place hgood hd hn, hcwd]
  have he : s' = _ := exit_test (cf := cf) hw.frames
  rw [he, hw.log]
  have hspec := saveTest_spec (cf := cf) (s := { s with frames := upd s.frames g (((State.init cwd fs).run cf pre).frames g), log := upd s.log ((State.init cwd fs).run cf pre).next (((true, c.fn) :: r) ++ [(false, c.fn)]) }) hgood n (((true, c.fn) :: r) ++ [(false, c.fn)])
  dsimp only at hspec
  rw [hq] at hspec
  exact hspec.2.2.2 htree hfree

/-- Within a test nothing else is written or reported: the file of a `trace.Trace` that the test itself calls is not written. -/
theorem C95_inner_lost (cf : Conf) (hcol : cf.collect = true) (cwd : List Str) (fs : FS) (pre mid : List Event) (g : Gid) (c : Call) (n : Str)
    (r : List (Bool × Nat)) (f : Nat) (o : List Nat) (hb : Born (pre ++ .enter g c :: mid)) (ht : IsTest c n)
    (hu : Untouched cf.raceSafe pre.reverse g) (hc : calls g mid [] = some (r, f :: o)) :
    let s := (State.init cwd fs).run cf (pre ++ .enter g c :: mid)
    (s.step cf (.exit g)).fs = s.fs ∧ (s.step cf (.exit g)).finished = s.finished := by
  intro s
  have hw := test_window hcol cwd fs hb ht hu hc
  have hfr := hw.frames
  have he : s.step cf (.exit g) = s.exit cf g := rfl
  rw [he]
  unfold State.exit
  rw [hfr]
  simp only [List.map_cons, List.cons_append]
  exact ⟨rfl, rfl⟩

/-! ### The trace of `trace.Trace` -/

theorem win_trace {cf : Conf} {s : State} (hb : Below s) {g : Gid} {c : Call} {k : Cfg} (ht : c.trace = some k) (hk : k.out ≠ [[]] ∨ k.onFinish = true) (ha : s.att g = none) :
    Win (s.step cf (.enter g c)) g s.next k.filter k [] [(true, c.fn)] (⟨c.fn, some s.next, some .trace⟩ :: s.frames g) := by
  have hbg : begins cf c true = some .trace := by unfold begins; rw [ht]; rfl
  have hne : ¬ (k.out = [[]] ∧ k.onFinish = false) := by
    rintro ⟨h1, h2⟩
    rcases hk with h | h
    · exact h h1
    · rw [h2] at h; cases h
  have he : s.enter cf g c = ({ s with att := upd s.att g (some s.next), next := s.next + 1, started := upd s.started s.next true, filter := upd (upd s.filter s.next none) s.next k.filter, log := upd s.log s.next [], cfg := upd s.cfg s.next k } : State).record g s.next c.fn (some .trace) := by
    unfold State.enter
    rw [ha]
    dsimp only
    rw [hbg]
    dsimp only
    unfold State.begin
    dsimp only
    rw [if_pos (by rw [upd_same]; rfl), ht]
    dsimp only
    rw [if_neg hne]
  have hother : ∀ g', g' ≠ g → (s.enter cf g c).att g' = s.att g' ∧ (s.enter cf g c).frames g' = s.frames g' := fun g' h => enter_other cf s c h
  show Win (s.enter cf g c) _ _ _ _ _ _ _
  refine ⟨?_, ?_, ?_, ?_, ?_, ?_, own_new hb g ?_ hother⟩ <;> rw [he]
  · exact upd_same _ _ _
  · exact upd_same _ _ _
  · exact upd_same _ _ _
  · exact upd_same _ _ _
  · exact upd_same _ _ _
  · show upd _ _ _ _ = _
    rw [upd_same]
    show upd _ _ _ _ ++ _ = _
    rw [upd_same]; rfl
  · exact Nat.lt_succ_self _

theorem keptBy_eq (F : Option (Nat → Bool)) (r : List (Bool × Nat)) : keptBy F r = filtered F r := by
  cases F with
  | none => exact keptBy_none r
  | some p => rfl

/-- A call of `trace.Trace` on a goroutine without registrations: at its end `OnFinish` is called once, and the file is written, with the calls of the
    goroutine that the filter lets through; no other file is touched. -/
theorem C95_trace (cf : Conf) (cwd : List Str) (fs : FS) (pre mid : List Event) (g : Gid) (c : Call) (k : Cfg) (r : List (Bool × Nat))
    (hb : Born (pre ++ .enter g c :: mid)) (ht : c.trace = some k) (hk : k.out ≠ [[]] ∨ k.onFinish = true) (hu : Untouched cf.raceSafe pre.reverse g)
    (hc : calls g mid [] = some (r, [])) :
    let s := (State.init cwd fs).run cf (pre ++ .enter g c :: mid)
    let s' := s.step cf (.exit g)
    let tr := (true, c.fn) :: filtered k.filter r ++ [(false, c.fn)]
    let q := abs (cwdAfter cwd (pre ++ .enter g c :: mid)) k.out
    s'.finished = (if k.onFinish then s.finished ++ [tr] else s.finished) ∧ (∀ p, (k.out = [[]] ∨ p ≠ q) → s'.fs p = s.fs p) ∧
    (k.out ≠ [[]] → q ≠ [] → (q.dropLast = [] ∨ s.fs q.dropLast = some .dir) → s.fs q ≠ some .dir → s'.fs q = some (.file (cf.json tr))) := by
  intro s s' tr q
  have ha := untouched_none cf cwd fs pre.reverse g (by rw [List.reverse_reverse]; exact born_left hb) hu
  rw [List.reverse_reverse] at ha
  have hw := win_run (cf := cf) mid (win_trace (cf := cf) (below_run (cf := cf) pre (below_init cwd fs)) ht hk ha) hc (no_child hb)
  rw [← run_cons, ← run_append, keptBy_eq] at hw
  have hcwd : s.cwd = cwdAfter cwd (pre ++ .enter g c :: mid) := cwd_run cf _ _
  have he : s' = { ({ s with frames := upd s.frames g (((State.init cwd fs).run cf pre).frames g), log := upd s.log ((State.init cwd fs).run cf pre).next tr } : State).saveTrace cf k tr with att := upd s.att g none } := by
    show s.exit cf g = _
    unfold State.exit
    rw [hw.frames]
    simp only [List.map_nil, List.nil_append]
    rw [upd_same, hw.log, hw.cfg]
    rfl
  have hq : q = abs s.cwd k.out := by rw [hcwd]
  clear_value q
  subst hq
  rw [he]
  have hspec := saveTrace_spec (cf := cf) (s := { s with frames := upd s.frames g (((State.init cwd fs).run cf pre).frames g), log := upd s.log ((State.init cwd fs).run cf pre).next tr }) k tr
  dsimp only at hspec
  exact ⟨hspec.2.1, hspec.1, hspec.2.2⟩

end Verif.Runtime.TestTrace
