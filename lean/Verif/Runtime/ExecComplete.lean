/- The relation `Run` and the interpreter agree: every derivation is found by the interpreter with enough fuel. -/
import Verif.Runtime.ExecRel

namespace Verif.Runtime.Exec

/-- the interpreter, run with fuel `n`, returns the given outcome -/
def Evals (E : Env) (n : Nat) : Job → St → Out → St → Prop
  | .stmts ss, σ, .done p, σ' => execStmts E n σ ss = some (σ', p)
  | .stmt s, σ, .done p, σ' => execStmt E n σ s = some (σ', p)
  | .trap cid fn recv, σ, .trapped r, σ' => execTrap E n σ cid fn recv = some (σ', r)
  | .hooks cid gen recv hs L, σ, .loop L', σ' => runHooks E n σ cid gen recv hs L = some (σ', L')
  | .post cid ps tr p, σ, .done p', σ' => execPost E n σ cid ps tr p = some (σ', p')
  | .posts cid cs, σ, .done p', σ' => runPosts E n σ cid cs = some (σ', p')
  | _, _, _, _ => False

theorem St.inc_depth (σ : St) : σ.inc.depth = σ.depth + 1 := rfl

theorem exec_of_run {E j σ ev o σ'} (h : Run E j σ ev o σ') : ∃ N, ∀ n, N ≤ n → Evals E n j σ o σ' := by
  induction h with
  | nil σ => exact ⟨1, fun n hn => by obtain ⟨m, rfl⟩ : ∃ m, n = m + 1 := ⟨n - 1, by omega⟩; simp [Evals, execStmts]⟩
  | panic σ => exact ⟨1, fun n hn => by obtain ⟨m, rfl⟩ : ∃ m, n = m + 1 := ⟨n - 1, by omega⟩; simp [Evals, execStmt]⟩
  | consP _ ih =>
    obtain ⟨N, h⟩ := ih
    refine ⟨N + 1, fun n hn => ?_⟩
    obtain ⟨m, rfl⟩ : ∃ m, n = m + 1 := ⟨n - 1, by omega⟩
    have := h m (by omega)
    simp only [Evals, execStmts] at this ⊢
    rw [this]
  | cons _ _ ih1 ih2 =>
    obtain ⟨N, h⟩ := ih1; obtain ⟨N2, h2⟩ := ih2
    refine ⟨N + N2 + 1, fun n hn => ?_⟩
    obtain ⟨m, rfl⟩ : ∃ m, n = m + 1 := ⟨n - 1, by omega⟩
    have := h m (by omega)
    have h2 := h2 m (by omega)
    simp only [Evals, execStmts] at this h2 ⊢
    rw [this]; exact h2
  | protect _ ih =>
    obtain ⟨N, h⟩ := ih
    refine ⟨N + 1, fun n hn => ?_⟩
    obtain ⟨m, rfl⟩ : ∃ m, n = m + 1 := ⟨n - 1, by omega⟩
    have := h m (by omega)
    simp only [Evals, execStmt] at this ⊢
    rw [this]
  | callTP _ ih =>
    obtain ⟨N, h⟩ := ih
    refine ⟨N + 1, fun n hn => ?_⟩
    obtain ⟨m, rfl⟩ : ∃ m, n = m + 1 := ⟨n - 1, by omega⟩
    have := h m (by omega)
    simp only [Evals, execStmt] at this ⊢
    rw [this]
  | callStop _ _ ih1 ih2 =>
    obtain ⟨N, h⟩ := ih1; obtain ⟨N2, h2⟩ := ih2
    refine ⟨N + N2 + 1, fun n hn => ?_⟩
    obtain ⟨m, rfl⟩ : ∃ m, n = m + 1 := ⟨n - 1, by omega⟩
    have := h m (by omega)
    have h2 := h2 m (by omega)
    simp only [Evals, execStmt] at this h2 ⊢
    rw [this]; simp [h2]
  | callRun _ _ _ ih1 ih2 ih3 =>
    obtain ⟨N, h⟩ := ih1; obtain ⟨N2, h2⟩ := ih2; obtain ⟨N3, h3⟩ := ih3
    refine ⟨N + N2 + N3 + 1, fun n hn => ?_⟩
    obtain ⟨m, rfl⟩ : ∃ m, n = m + 1 := ⟨n - 1, by omega⟩
    have := h m (by omega)
    have h2 := h2 m (by omega)
    have h3 := h3 m (by omega)
    simp only [Evals, execStmt] at this h2 h3 ⊢
    rw [this]; simp [h2, h3]
  | trapP1 _ hp ih =>
    obtain ⟨N, h⟩ := ih
    refine ⟨N + 1, fun n hn => ?_⟩
    obtain ⟨m, rfl⟩ : ∃ m, n = m + 1 := ⟨n - 1, by omega⟩
    have := h m (by omega)
    simp only [Evals, execTrap] at this ⊢
    rw [this]; simp [hp]
  | trapP2 _ hp hs _ hp2 ih1 ih2 =>
    obtain ⟨N, h⟩ := ih1; obtain ⟨N2, h2⟩ := ih2
    refine ⟨N + N2 + 1, fun n hn => ?_⟩
    obtain ⟨m, rfl⟩ : ∃ m, n = m + 1 := ⟨n - 1, by omega⟩
    have := h m (by omega)
    have h2 := h2 m (by omega)
    simp only [Evals, execTrap] at this h2 ⊢
    rw [this]; simp only [hp, hs, Bool.false_eq_true, if_false]
    rw [St.inc_depth, h2]; simp [hp2]
  | trapStop1 _ hp hs ih =>
    obtain ⟨N, h⟩ := ih
    refine ⟨N + 1, fun n hn => ?_⟩
    obtain ⟨m, rfl⟩ : ∃ m, n = m + 1 := ⟨n - 1, by omega⟩
    have := h m (by omega)
    simp only [Evals, execTrap] at this ⊢
    rw [this]; simp [hp, hs, Loop.start, Loop.closures, trOf, St.enter]
  | trapStop2 _ hp hs _ hp2 hs2 ih1 ih2 =>
    obtain ⟨N, h⟩ := ih1; obtain ⟨N2, h2⟩ := ih2
    refine ⟨N + N2 + 1, fun n hn => ?_⟩
    obtain ⟨m, rfl⟩ : ∃ m, n = m + 1 := ⟨n - 1, by omega⟩
    have := h m (by omega)
    have h2 := h2 m (by omega)
    simp only [Evals, execTrap] at this h2 ⊢
    rw [this]; simp only [hp, hs, Bool.false_eq_true, if_false]
    rw [St.inc_depth, h2]; simp [hp2, hs2, trOf, St.enter]
  | trapNoMock _ hp hs _ hp2 hs2 hm ih1 ih2 =>
    obtain ⟨N, h⟩ := ih1; obtain ⟨N2, h2⟩ := ih2
    refine ⟨N + N2 + 1, fun n hn => ?_⟩
    obtain ⟨m, rfl⟩ : ∃ m, n = m + 1 := ⟨n - 1, by omega⟩
    have := h m (by omega)
    have h2 := h2 m (by omega)
    simp only [Evals, execTrap] at this h2 ⊢
    rw [this]; simp only [hp, hs, Bool.false_eq_true, if_false]
    rw [St.inc_depth, h2]; simp only [hp2, hs2, hm, trOf, St.enter, Bool.false_eq_true, if_false, Bool.or_self, Bool.false_or]
  | trapMockP _ hp hs _ hp2 hs2 hm _ ih1 ih2 ih3 =>
    obtain ⟨N, h⟩ := ih1; obtain ⟨N2, h2⟩ := ih2; obtain ⟨N3, h3⟩ := ih3
    refine ⟨N + N2 + N3 + 1, fun n hn => ?_⟩
    obtain ⟨m, rfl⟩ : ∃ m, n = m + 1 := ⟨n - 1, by omega⟩
    have := h m (by omega)
    have h2 := h2 m (by omega)
    have h3 := h3 m (by omega)
    simp only [Evals, execTrap] at this h2 h3 ⊢
    rw [this]; simp only [hp, hs, Bool.false_eq_true, if_false]
    rw [St.inc_depth, h2]
    simp only [St.enter] at h3
    simp only [hp2, hs2, hm, trOf, St.enter, Bool.false_eq_true, if_false, Bool.or_self, Bool.false_or]
    rw [h3]
  | trapMock _ hp hs _ hp2 hs2 hm _ ih1 ih2 ih3 =>
    obtain ⟨N, h⟩ := ih1; obtain ⟨N2, h2⟩ := ih2; obtain ⟨N3, h3⟩ := ih3
    refine ⟨N + N2 + N3 + 1, fun n hn => ?_⟩
    obtain ⟨m, rfl⟩ : ∃ m, n = m + 1 := ⟨n - 1, by omega⟩
    have := h m (by omega)
    have h2 := h2 m (by omega)
    have h3 := h3 m (by omega)
    simp only [Evals, execTrap] at this h2 h3 ⊢
    rw [this]; simp only [hp, hs, Bool.false_eq_true, if_false]
    rw [St.inc_depth, h2]
    simp only [St.enter] at h3
    simp only [hp2, hs2, hm, trOf, St.enter, Bool.false_eq_true, if_false, Bool.or_self, Bool.false_or]
    rw [h3]
  | hooksNil => exact ⟨1, fun n hn => by obtain ⟨m, rfl⟩ : ∃ m, n = m + 1 := ⟨n - 1, by omega⟩; simp [Evals, runHooks]⟩
  | hooksSkip hg hw _ ih =>
    obtain ⟨N, h⟩ := ih
    refine ⟨N + 1, fun n hn => ?_⟩
    obtain ⟨m, rfl⟩ : ∃ m, n = m + 1 := ⟨n - 1, by omega⟩
    have := h m (by omega)
    simp only [Evals, runHooks] at this ⊢
    subst hg
    simp [hw, this]
  | @hooksP cid gen recv hd hs σ e σ' L hw hpre _ ih =>
    obtain ⟨N, h⟩ := ih
    refine ⟨N + 1, fun n hn => ?_⟩
    obtain ⟨m, rfl⟩ : ∃ m, n = m + 1 := ⟨n - 1, by omega⟩
    have := h m (by omega)
    simp only [Evals, runHooks] at this ⊢
    rw [if_neg (by cases gen <;> simp_all)]
    simp only [hpre, if_true, this]
  | @hooksStop cid gen recv hd hs σ e σ' L hw hpre _ hst ih =>
    obtain ⟨N, h⟩ := ih
    refine ⟨N + 1, fun n hn => ?_⟩
    obtain ⟨m, rfl⟩ : ∃ m, n = m + 1 := ⟨n - 1, by omega⟩
    have := h m (by omega)
    simp only [Evals, runHooks] at this ⊢
    rw [if_neg (by cases gen <;> simp_all)]
    simp only [hpre, if_true, this, hst]
  | @hooksPre cid gen recv hd hs σ e σ' e' σ'' L L' hw hpre _ hst _ ih1 ih2 =>
    obtain ⟨N, h⟩ := ih1; obtain ⟨N2, h2⟩ := ih2
    refine ⟨N + N2 + 1, fun n hn => ?_⟩
    obtain ⟨m, rfl⟩ : ∃ m, n = m + 1 := ⟨n - 1, by omega⟩
    have := h m (by omega)
    have h2 := h2 m (by omega)
    simp only [Evals, runHooks] at this h2 ⊢
    rw [if_neg (by cases gen <;> simp_all)]
    simp only [hpre, if_true, this, hst, Bool.false_eq_true, if_false]
    cases hpo : hd.hasPost <;> simp only [hpo, if_true, if_false, Bool.false_eq_true] at h2 ⊢ <;> exact h2
  | @hooksNoPre cid gen recv hd hs σ e σ'' L L' hw hpre _ ih1 =>
    obtain ⟨N, h⟩ := ih1
    refine ⟨N + 1, fun n hn => ?_⟩
    obtain ⟨m, rfl⟩ : ∃ m, n = m + 1 := ⟨n - 1, by omega⟩
    have := h m (by omega)
    simp only [Evals, runHooks] at this ⊢
    rw [if_neg (by cases gen <;> simp_all)]
    simp only [hpre, Bool.false_eq_true, if_false]
    cases hpo : hd.hasPost <;> simp only [hpo, if_true, if_false, Bool.false_eq_true] at this ⊢ <;> exact this
  | postP _ ih =>
    obtain ⟨N, h⟩ := ih
    refine ⟨N + 1, fun n hn => ?_⟩
    obtain ⟨m, rfl⟩ : ∃ m, n = m + 1 := ⟨n - 1, by omega⟩
    have := h m (by omega)
    simp only [Evals, execPost] at this ⊢
    rw [this]
  | postU _ ih =>
    obtain ⟨N, h⟩ := ih
    refine ⟨N + 1, fun n hn => ?_⟩
    obtain ⟨m, rfl⟩ : ∃ m, n = m + 1 := ⟨n - 1, by omega⟩
    have := h m (by omega)
    simp only [Evals, execPost] at this ⊢
    rw [this]
  | postT _ ih =>
    obtain ⟨N, h⟩ := ih
    refine ⟨N + 1, fun n hn => ?_⟩
    obtain ⟨m, rfl⟩ : ∃ m, n = m + 1 := ⟨n - 1, by omega⟩
    have := h m (by omega)
    simp only [Evals, execPost] at this ⊢
    rw [this]
  | postsNil => exact ⟨1, fun n hn => by obtain ⟨m, rfl⟩ : ∃ m, n = m + 1 := ⟨n - 1, by omega⟩; simp [Evals, runPosts]⟩
  | @postsBad cid c cs σ hc =>
    refine ⟨1, fun n hn => ?_⟩
    obtain ⟨m, rfl⟩ : ∃ m, n = m + 1 := ⟨n - 1, by omega⟩
    simp only [Evals, runPosts]
    cases h : c.h with
    | none => rfl
    | some hd => simp [hc hd h]
  | postsP hc hp _ ih =>
    obtain ⟨N, h⟩ := ih
    refine ⟨N + 1, fun n hn => ?_⟩
    obtain ⟨m, rfl⟩ : ∃ m, n = m + 1 := ⟨n - 1, by omega⟩
    have := h m (by omega)
    simp only [Evals, runPosts] at this ⊢
    simp only [hc, hp, this, Bool.not_true, Bool.false_eq_true, if_false]
  | postsOk hc hp _ _ ih1 ih2 =>
    obtain ⟨N, h⟩ := ih1; obtain ⟨N2, h2⟩ := ih2
    refine ⟨N + N2 + 1, fun n hn => ?_⟩
    obtain ⟨m, rfl⟩ : ∃ m, n = m + 1 := ⟨n - 1, by omega⟩
    have := h m (by omega)
    have h2 := h2 m (by omega)
    simp only [Evals, runPosts] at this h2 ⊢
    simp only [hc, hp, this, h2, Bool.not_true, Bool.false_eq_true, if_false]

end Verif.Runtime.Exec
