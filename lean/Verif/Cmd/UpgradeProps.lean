/-
C107: what `xgo upgrade` installs and says.
-/
import Verif.Cmd.UpgradeSpec

namespace Verif.Cmd.Upgrade
open Verif.Text Verif.Cmd.Upgrade.Spec

theorem lookup_runs {xgo : Nat → Option Program} {p : Program} : ∀ {path : List Nat},
    lookup xgo path = some p ↔ ∃ before d after, path = before ++ d :: after ∧ (∀ x ∈ before, xgo x = none) ∧ xgo d = some p
  | [] => by simp [lookup]
  | d :: path => by
    unfold lookup
    cases h : xgo d with
    | some q =>
      constructor
      · intro e
        exact ⟨[], d, path, rfl, by simp, by rw [h]; exact e⟩
      · rintro ⟨before, d', after, e, hb, hd⟩
        cases before with
        | nil =>
          simp only [List.nil_append, List.cons.injEq] at e
          rw [← e.1, h] at hd
          exact hd
        | cons x before =>
          simp only [List.cons_append, List.cons.injEq] at e
          have := hb x (by simp)
          rw [← e.1, h] at this
          cases this
    | none =>
      dsimp only
      rw [lookup_runs (path := path)]
      constructor
      · rintro ⟨before, d', after, e, hb, hd⟩
        refine ⟨d :: before, d', after, by rw [e]; rfl, ?_, hd⟩
        intro x hx
        rcases List.mem_cons.1 hx with rfl | hx
        · exact h
        · exact hb x hx
      · rintro ⟨before, d', after, e, hb, hd⟩
        cases before with
        | nil =>
          simp only [List.nil_append, List.cons.injEq] at e
          rw [← e.1, h] at hd
          cases hd
        | cons x before =>
          simp only [List.cons_append, List.cons.injEq] at e
          exact ⟨before, d', after, e.2, fun y hy => hb y (List.mem_cons_of_mem _ hy), hd⟩

theorem lookup_none {xgo : Nat → Option Program} : ∀ {path : List Nat}, (∀ d ∈ path, xgo d = none) → lookup xgo path = none
  | [], _ => rfl
  | d :: path, h => by
    unfold lookup
    rw [h d (by simp)]
    exact lookup_none fun x hx => h x (List.mem_cons_of_mem _ hx)

theorem trimLine_version (v : Str) : trimLine (v ++ "\n".toList) = v := by
  have : (v ++ "\n".toList) = v ++ ['\n'] := rfl
  rw [this]
  unfold trimLine
  simp

theorem version_of {w : World} {v : Str} (h : Version w v) : cmdXgoVersion w = some v := by
  unfold cmdXgoVersion
  rw [lookup_runs.2 h]
  dsimp only
  rw [trimLine_version]

theorem version_none {w : World} (h : NotFound w) : cmdXgoVersion w = some [] := by
  unfold cmdXgoVersion
  rw [lookup_none h]

theorem version_fails {w : World} (h : Runs w .fails) : cmdXgoVersion w = none := by
  unfold cmdXgoVersion
  rw [lookup_runs.2 h]

/-- The world after the installation. -/
def after (w : World) (v : Str) : World :=
  { w with xgo := fun d => if d = w.gobin then some (.prints (v ++ "\n".toList)) else w.xgo d }

theorem installed_after {w : World} {v : Str} (h : w.latest = some v) : Installed w (after w v) v :=
  ⟨h, by simp [after], fun d hd => by simp [after, hd], rfl⟩

theorem install_some {w : World} {v : Str} (h : w.latest = some v) : cmdInstallXgo w = some (after w v) := by
  unfold cmdInstallXgo after
  simp [h]

theorem parse_args {args : List Str} (h : Args args) : ∀ dir, ∃ d, parseArgs dir args = some d := by
  induction h with
  | nil => exact fun dir => ⟨dir, rfl⟩
  | dir d _ ih =>
    intro dir
    obtain ⟨r, hr⟩ := ih d
    exact ⟨r, by rw [parseArgs, if_pos rfl]; exact hr⟩
  | other hn _ ih =>
    intro dir
    obtain ⟨r, hr⟩ := ih dir
    exact ⟨r, by rw [parseArgs.eq_def]; dsimp only; rw [if_neg hn]; exact hr⟩

theorem handle_args {args : List Str} (h : Args args) (w : World) : handleUpgrade args w = upgrade w := by
  obtain ⟨d, hd⟩ := parse_args h []
  unfold handleUpgrade
  rw [hd]

/-- The installed world is what the specification says, up to the fields that play no role. -/
theorem installed_eq {w w' : World} {v : Str} (h : Installed w w' v) : w'.xgo = (after w v).xgo ∧ w'.path = (after w v).path := by
  refine ⟨?_, h.path⟩
  funext d
  by_cases hd : d = w.gobin
  · subst hd
    rw [h.there]
    simp [after]
  · rw [h.rest d hd]
    simp [after, hd]

theorem runs_congr {w w' : World} (h : w'.xgo = w.xgo ∧ w'.path = w.path) {p : Program} (hr : Runs w' p) : Runs w p := by
  unfold Runs at hr ⊢
  rw [h.1, h.2] at hr
  exact hr

/-- **C107.** `xgo upgrade` that ends well has put the newest version where `go install` puts programs, and has changed nothing else. -/
theorem C107_install (args : List Str) (w w' : World) (out err : Str) (h : handleUpgrade args w = (w', .ok out err)) :
    ∃ v, Installed w w' v := by
  unfold handleUpgrade at h
  cases hp : parseArgs [] args with
  | none =>
    rw [hp] at h
    cases h
  | some d =>
    rw [hp] at h
    dsimp only at h
    unfold upgrade at h
    cases hc : cmdXgoVersion w with
    | none => rw [hc] at h; cases h
    | some cur =>
      rw [hc] at h
      dsimp only at h
      cases hl : w.latest with
      | none =>
        unfold cmdInstallXgo at h
        rw [hl] at h
        cases h
      | some v =>
        rw [install_some hl] at h
        dsimp only at h
        refine ⟨v, ?_⟩
        have : w' = after w v := by
          cases ha : cmdXgoVersion (after w v) with
          | none => rw [ha] at h; cases h
          | some a =>
            rw [ha] at h
            dsimp only at h
            by_cases h1 : a = []
            · rw [if_pos h1] at h
              exact (congrArg Prod.fst h).symm
            · rw [if_neg h1] at h
              by_cases h2 : cur = a
              · rw [if_pos h2] at h
                exact (congrArg Prod.fst h).symm
              · rw [if_neg h2] at h
                exact (congrArg Prod.fst h).symm
        rw [this]
        exact installed_after hl

theorem upgrade_eq {w : World} {v cur a : Str} (hl : w.latest = some v) (hc : cmdXgoVersion w = some cur)
    (ha : cmdXgoVersion (after w v) = some a) : upgrade w =
      if a = [] then (after w v, .ok [] "command 'xgo' not found, you may need to add $GOPATH/bin to your PATH\n".toList)
      else if cur = a then (after w v, .ok ("upgraded xgo v".toList ++ a ++ "\n".toList) [])
      else (after w v, .ok ("upgraded xgo v".toList ++ cur ++ " -> v".toList ++ a ++ "\n".toList) []) := by
  unfold upgrade
  rw [hc]
  dsimp only
  rw [install_some hl]
  dsimp only
  rw [ha]

/-- **C107.** What it says is true of the user's xgo: the version before, and the version after. -/
theorem C107_message (args : List Str) (hargs : Args args) (w w' : World) (v : Str) (hi : Installed w w' v) (old new : Str) (ho : Version w old)
    (hn : Version w' new) (hne : new ≠ []) :
    (handleUpgrade args w).2 = if old = new then .ok ("upgraded xgo v".toList ++ new ++ "\n".toList) []
      else .ok ("upgraded xgo v".toList ++ old ++ " -> v".toList ++ new ++ "\n".toList) [] := by
  have hn' : Version (after w v) new := runs_congr (installed_eq hi) hn
  rw [handle_args hargs, upgrade_eq hi.latest (version_of ho) (version_of hn'), if_neg hne]
  by_cases h : old = new
  · rw [if_pos h, if_pos h]
  · rw [if_neg h, if_neg h]

/-- **C107, partial.** The user has the newest version then, if the directory of `go install` is on PATH and no directory before it has an
    xgo. Missing: for the other cases, see `C107_shadowed`. -/
theorem C107_latest_partial (args : List Str) (w w' : World) (out err : Str) (h : handleUpgrade args w = (w', .ok out err)) (before rest : List Nat)
    (hp : w.path = before ++ w.gobin :: rest) (hb : ∀ x ∈ before, w.xgo x = none) (hg : w.gobin ∉ before) :
    ∃ v, w.latest = some v ∧ Version w' v := by
  obtain ⟨v, hi⟩ := C107_install args w w' out err h
  refine ⟨v, hi.latest, before, w.gobin, rest, by rw [hi.path]; exact hp, ?_, hi.there⟩
  intro x hx
  rw [hi.rest x (fun e => hg (e ▸ hx))]
  exact hb x hx

/-- **C107.** An older xgo in a directory before that of `go install` stays the user's xgo. It is reported as upgraded all the same. -/
theorem C107_shadowed (args : List Str) (hargs : Args args) (w : World) (v old : Str) (hl : w.latest = some v) (before : List Nat) (d : Nat)
    (rest : List Nat) (hp : w.path = before ++ d :: rest) (hb : ∀ x ∈ before, w.xgo x = none) (hg : w.gobin ∉ before) (hd : d ≠ w.gobin)
    (ho : w.xgo d = some (.prints (old ++ "\n".toList))) (hne : old ≠ []) :
    (handleUpgrade args w).2 = .ok ("upgraded xgo v".toList ++ old ++ "\n".toList) [] ∧ Version (handleUpgrade args w).1 old := by
  have hw : Version w old := ⟨before, d, rest, hp, hb, ho⟩
  have hi := installed_after hl
  have hw' : Version (after w v) old :=
    ⟨before, d, rest, hp, fun x hx => by rw [hi.rest x (fun e => hg (e ▸ hx))]; exact hb x hx, by rw [hi.rest d hd]; exact ho⟩
  rw [handle_args hargs, upgrade_eq hl (version_of hw) (version_of hw'), if_neg hne, if_pos rfl]
  exact ⟨rfl, hw'⟩

/-- **C107.** The first installation: there is no version before, and the report begins with an empty one. If the directory of `go install` is
    not on PATH, the user is told to add it. -/
theorem C107_first (args : List Str) (hargs : Args args) (w : World) (v : Str) (hl : w.latest = some v) (hne : v ≠ []) (hn : NotFound w) :
    (w.gobin ∈ w.path → (handleUpgrade args w).2 = .ok ("upgraded xgo v -> v".toList ++ v ++ "\n".toList) []) ∧
    (w.gobin ∉ w.path → (handleUpgrade args w).2 = .ok [] "command 'xgo' not found, you may need to add $GOPATH/bin to your PATH\n".toList) := by
  have hi := installed_after hl
  constructor
  · intro hg
    obtain ⟨before, rest, e, hnb⟩ := List.eq_append_cons_of_mem hg
    have hv : Version (after w v) v := ⟨before, w.gobin, rest, e, fun x hx => by
      rw [hi.rest x (fun h => hnb (h ▸ hx))]
      exact hn x (by rw [e]; exact List.mem_append_left _ hx), hi.there⟩
    rw [handle_args hargs, upgrade_eq hl (version_none hn) (version_of hv), if_neg hne, if_neg (fun h => hne h.symm)]
    simp only [List.append_nil, Result.ok.injEq, and_true]
    rfl
  · intro hg
    have hv : NotFound (after w v) := by
      intro d hd
      rw [hi.rest d (fun h => hg (h ▸ hd))]
      exact hn d hd
    rw [handle_args hargs, upgrade_eq hl (version_none hn) (version_none hv), if_pos rfl]

/-- **C107.** It cannot repair a broken xgo: it ends with an error, before it installs anything. The same if `go install` fails. -/
theorem C107_broken (args : List Str) (hargs : Args args) (w : World) (h : Runs w .fails ∨ w.latest = none) :
    handleUpgrade args w = (w, .error) := by
  rw [handle_args hargs]
  unfold upgrade
  rcases h with h | h
  · rw [version_fails h]
  · cases cmdXgoVersion w with
    | none => rfl
    | some c =>
      dsimp only
      unfold cmdInstallXgo
      rw [h]
      rfl

/-- **C107.** The arguments, and the directory that is asked for among them, make no difference. -/
theorem C107_ignored (a b : List Str) (ha : Args a) (hb : Args b) (w : World) : handleUpgrade a w = handleUpgrade b w := by
  rw [handle_args ha, handle_args hb]

theorem parse_none {args : List Str} : ∀ {dir : Str}, parseArgs dir args = none → ∃ pre, Args pre ∧ args = pre ++ ["--install-dir".toList] := by
  induction hn : args.length using Nat.strongRecOn generalizing args with
  | _ n ih =>
    intro dir h
    subst hn
    cases args with
    | nil => cases h
    | cons a l =>
      rw [parseArgs.eq_def] at h
      dsimp only at h
      by_cases e : a = "--install-dir".toList
      · rw [if_pos e] at h
        cases l with
        | nil => exact ⟨[], .nil, by rw [e]; rfl⟩
        | cons d l =>
          obtain ⟨pre, hp, hl⟩ := ih l.length (by simp only [List.length_cons]; omega) rfl h
          exact ⟨"--install-dir".toList :: d :: pre, .dir d hp, by rw [e, hl]; rfl⟩
      · rw [if_neg e] at h
        obtain ⟨pre, hp, hl⟩ := ih l.length (by simp) rfl h
        exact ⟨a :: pre, .other e hp, by rw [hl]; rfl⟩

/-- **C107.** It crashes exactly if the directory is missing, and nothing is installed then. -/
theorem C107_crash (args : List Str) (w : World) :
    ((handleUpgrade args w).2 = .crash ↔ ∃ pre, Args pre ∧ args = pre ++ ["--install-dir".toList]) ∧
    ((handleUpgrade args w).2 = .crash → (handleUpgrade args w).1 = w) := by
  have hno : ∀ w, (upgrade w).2 ≠ .crash := by
    intro w h
    unfold upgrade at h
    repeat' split at h
    all_goals cases h
  have key : (handleUpgrade args w).2 = .crash → parseArgs [] args = none := by
    intro h
    unfold handleUpgrade at h
    cases hp : parseArgs [] args with
    | none => rfl
    | some d => rw [hp] at h; exact absurd h (hno w)
  have back : ∀ pre, Args pre → ∀ dir, parseArgs dir (pre ++ ["--install-dir".toList]) = none := by
    intro pre hp
    induction hp with
    | nil => intro dir; rfl
    | dir d _ ih =>
      intro dir
      rw [List.cons_append, List.cons_append, parseArgs, if_pos rfl]
      exact ih d
    | other hn _ ih =>
      intro dir
      rw [List.cons_append, parseArgs.eq_def]
      dsimp only
      rw [if_neg hn]
      exact ih dir
  refine ⟨⟨fun h => parse_none (key h), ?_⟩, ?_⟩
  · rintro ⟨pre, hp, rfl⟩
    unfold handleUpgrade
    rw [back pre hp []]
  · intro h
    unfold handleUpgrade
    rw [key h]

/-! ### Small worlds -/

/-- An xgo of version 1.0 in /usr/local/bin (1), which is before the directory of `go install` (2) in PATH. -/
def old : World := ⟨[0, 1, 2], 2, some "1.1".toList, fun d => if d = 1 then some (.prints "1.0\n".toList) else none⟩

/-- It stays what it is, and is reported as upgraded. -/
example : (handleUpgrade [] old).2 = .ok "upgraded xgo v1.0\n".toList [] ∧ Version (handleUpgrade [] old).1 "1.0".toList :=
  C107_shadowed [] .nil old "1.1".toList "1.0".toList rfl [0] 1 [2] rfl (by simp [old]) (by decide) (by decide) rfl (by decide)

/-- In the other order it is upgraded. -/
example : (handleUpgrade ["--install-dir".toList, "/opt".toList] { old with path := [2, 1], xgo := fun d => if d = 2 then some (.prints "1.0\n".toList) else none }).2 =
    .ok "upgraded xgo v1.0 -> v1.1\n".toList [] := by decide +kernel

example : (handleUpgrade [] { old with xgo := fun _ => none }).2 = .ok "upgraded xgo v -> v1.1\n".toList [] := by decide +kernel

example : Args ["--install-dir".toList, "/opt".toList, "-v".toList] := .dir _ (.other (by decide) .nil)

/-- A broken xgo. -/
example : Runs { old with xgo := fun _ => some .fails } .fails := ⟨[], 0, [1, 2], rfl, by simp, rfl⟩

/-- The hypotheses of `C107_latest_partial` are met. -/
example : ∃ w' out err, handleUpgrade [] { old with path := [2, 1] } = (w', .ok out err) := by
  unfold handleUpgrade upgrade
  exact ⟨_, _, _, rfl⟩

example : (handleUpgrade ["--install-dir".toList] old).2 = .crash := by decide

end Verif.Cmd.Upgrade
