/- Invariants of runs, by induction on the relation `Run`. -/
import Verif.Runtime.ExecSpec
import Verif.Runtime.ExecComplete

namespace Verif.Runtime.Exec

/-! ### clock and depth -/

theorem Run.tick_eq {E j σ ev o σ'} (h : Run E j σ ev o σ') : σ'.tick = σ.tick + ev.length := by
  induction h <;> simp_all [St.emit, St.inc, St.dec, St.enter, entryEv] <;> try omega
  all_goals (first | omega | (split <;> simp_all <;> omega))

theorem St.enter_depth (σ : St) (c : Nat) (b : Bool) : (σ.enter c b).depth = σ.depth := by
  cases b <;> simp [St.enter, St.emit]

theorem Run.depth_eq {E j σ ev o σ'} (h : Run E j σ ev o σ') : σ'.depth = σ.depth := by
  induction h <;> simp_all [St.emit, St.inc, St.dec, St.enter_depth] <;> try omega

/-! ### hooks are balanced -/

theorem openHooks_nil : openHooks [] = 0 := rfl
theorem openHooks_append (a b : List Ev) : openHooks (a ++ b) = openHooks a + openHooks b := by
  simp [openHooks]; omega
theorem openHooks_cons (e : Ev) (b : List Ev) :
    openHooks (e :: b) = (if e.isOpen then 1 else 0) - (if e.isClose then 1 else 0) + openHooks b := by
  simp only [openHooks, List.countP_cons]
  split <;> split <;> simp <;> omega

theorem openHooks_entryEv (σ c b) : openHooks (entryEv σ c b) = 0 := by
  cases b <;> rfl

theorem Run.open_eq {E j σ ev o σ'} (h : Run E j σ ev o σ') : openHooks ev = 0 := by
  induction h <;>
    simp_all [openHooks_nil, openHooks_append, openHooks_cons, openHooks_entryEv, Ev.isOpen, Ev.isClose]

/-! ### range of call ids -/

/-- the call a job works for -/
def Job.own : Job → Option Nat
  | .stmts _ | .stmt _ => none
  | .trap c _ _ | .hooks c _ _ _ _ | .post c _ _ _ | .posts c _ => some c

def InR (own : Option Nat) (lo hi : Nat) (e : Ev) : Prop := own = some e.cid ∨ (lo ≤ e.cid ∧ e.cid < hi)

theorem InR.mono {own lo hi lo' hi' e} (h : InR own lo hi e) (h1 : lo' ≤ lo) (h2 : hi ≤ hi') :
    InR own lo' hi' e := by
  rcases h with h | h
  · exact .inl h
  · exact .inr ⟨by omega, by omega⟩

theorem InR.of_none {lo hi e} (own) (h : InR none lo hi e) : InR own lo hi e := by
  rcases h with h | h
  · cases h
  · exact .inr h

theorem InR.toNone {own lo hi e} (h : InR own lo hi e) (lo') (h1 : ∀ c, own = some c → lo' ≤ c ∧ c < hi) (h2 : lo' ≤ lo) :
    InR none lo' hi e := by
  rcases h with h | h
  · exact .inr (h1 _ h)
  · exact .inr ⟨by omega, by omega⟩

theorem InR.self {lo hi e c} (h : e.cid = c) : InR (some c) lo hi e := .inl (by rw [h])

theorem entryEv_own {σ c b e} (h : e ∈ entryEv σ c b) : e.cid = c := by
  cases b <;> simp [entryEv] at h
  subst h; rfl

theorem Run.range {E j σ ev o σ'} (h : Run E j σ ev o σ') :
    ∀ e ∈ ev, InR j.own σ.tick σ'.tick e := by
  induction h with
  | nil | panic | hooksNil | postsNil => simp
  | consP _ ih | protect _ ih | trapP1 _ _ ih | hooksSkip _ _ _ ih | hooksNoPre _ _ _ ih | postP _ ih | postU _ ih => exact ih
  | cons h1 h2 ih1 ih2 =>
    intro e he
    have t1 := h1.tick_eq; have t2 := h2.tick_eq
    rcases List.mem_append.1 he with he | he
    · exact (ih1 e he).mono (by omega) (by omega)
    · exact (ih2 e he).mono (by omega) (by omega)
  | callTP h1 ih1 =>
    intro e he
    have t1 := h1.tick_eq
    simp only [St.emit, Job.own] at t1 ih1 ⊢
    simp only [List.mem_cons, List.mem_append, List.not_mem_nil, or_false] at he
    rcases he with rfl | he | rfl
    · exact .inr ⟨Nat.le_refl _, by simp only [Ev.cid]; omega⟩
    · refine (ih1 e he).toNone _ (fun c hc => ?_) (by omega) |>.mono (Nat.le_refl _) (by omega)
      cases hc; omega
    · exact .inr ⟨Nat.le_refl _, by simp only [Ev.cid]; omega⟩
  | callStop h1 h2 ih1 ih2 =>
    intro e he
    have t1 := h1.tick_eq; have t2 := h2.tick_eq
    simp only [St.emit, Job.own] at t1 t2 ih1 ih2 ⊢
    simp only [List.mem_cons, List.mem_append, List.not_mem_nil, or_false] at he
    rcases he with rfl | he | he | rfl
    · exact .inr ⟨Nat.le_refl _, by simp only [Ev.cid]; omega⟩
    · refine (ih1 e he).toNone _ (fun c hc => ?_) (by omega) |>.mono (Nat.le_refl _) (by omega)
      cases hc; omega
    · refine (ih2 e he).toNone _ (fun c hc => ?_) (by omega) |>.mono (Nat.le_refl _) (by omega)
      cases hc; omega
    · exact .inr ⟨Nat.le_refl _, by simp only [Ev.cid]; omega⟩
  | callRun h1 h2 h3 ih1 ih2 ih3 =>
    intro e he
    have t1 := h1.tick_eq; have t2 := h2.tick_eq; have t3 := h3.tick_eq
    simp only [St.emit, Job.own] at t1 t2 t3 ih1 ih2 ih3 ⊢
    simp only [List.mem_cons, List.mem_append, List.not_mem_nil, or_false] at he
    rcases he with rfl | he | rfl | he | he | rfl
    · exact .inr ⟨Nat.le_refl _, by simp only [Ev.cid]; omega⟩
    · refine (ih1 e he).toNone _ (fun c hc => ?_) (by omega) |>.mono (Nat.le_refl _) (by omega)
      cases hc; omega
    · exact .inr ⟨Nat.le_refl _, by simp only [Ev.cid]; omega⟩
    · exact (ih2 e he).mono (by omega) (by omega)
    · refine (ih3 e he).toNone _ (fun c hc => ?_) (by omega) |>.mono (Nat.le_refl _) (by omega)
      cases hc; omega
    · exact .inr ⟨Nat.le_refl _, by simp only [Ev.cid]; omega⟩
  | trapP2 h1 _ _ h2 _ ih1 ih2 =>
    intro e he
    have t1 := h1.tick_eq; have t2 := h2.tick_eq
    simp only [St.inc, St.dec, Job.own] at t1 t2 ih1 ih2 ⊢
    rcases List.mem_append.1 he with he | he
    · exact (ih1 e he).mono (by omega) (by omega)
    · exact (ih2 e he).mono (by omega) (by omega)
  | @trapStop1 cid fn recv σ e1 σ1 L h1 _ _ ih1 =>
    intro e he
    have t1 := h1.tick_eq
    have t2 : σ1.tick ≤ (σ1.enter cid (E.tracing && E.filter fn)).tick := by
      simp only [St.enter]; split <;> simp [St.emit]
    simp only [St.inc, St.dec, Job.own] at t1 ih1 ⊢
    simp only [List.mem_append] at he
    rcases he with he | he
    · exact (ih1 e he).mono (by omega) (by omega)
    · exact .self (entryEv_own he)
  | @trapStop2 cid fn recv σ e1 σ1 e2 σ2 L L2 h1 _ _ h2 _ _ ih1 ih2 =>
    intro e he
    have t1 := h1.tick_eq; have t2 := h2.tick_eq
    have t3 : σ2.tick ≤ (σ2.enter cid (E.tracing && E.filter fn)).tick := by
      simp only [St.enter]; split <;> simp [St.emit]
    simp only [St.inc, St.dec, Job.own] at t1 t2 ih1 ih2 ⊢
    simp only [List.mem_append] at he
    rcases he with he | he | he
    · exact (ih1 e he).mono (by omega) (by omega)
    · exact (ih2 e he).mono (by omega) (by omega)
    · exact .self (entryEv_own he)
  | @trapNoMock cid fn recv σ e1 σ1 e2 σ2 L L2 h1 _ _ h2 _ _ _ ih1 ih2 =>
    intro e he
    have t1 := h1.tick_eq; have t2 := h2.tick_eq
    have t3 : σ2.tick ≤ (σ2.enter cid (E.tracing && E.filter fn && decide (σ.depth + 1 ≤ 1))).tick := by
      simp only [St.enter]; split <;> simp [St.emit]
    simp only [St.inc, St.dec, Job.own] at t1 t2 ih1 ih2 ⊢
    simp only [List.mem_append] at he
    rcases he with he | he | he
    · exact (ih1 e he).mono (by omega) (by omega)
    · exact (ih2 e he).mono (by omega) (by omega)
    · exact .self (entryEv_own he)
  | @trapMockP cid fn recv σ e1 σ1 e2 σ2 e3 σ3 L L2 m h1 _ _ h2 _ _ _ h3 ih1 ih2 ih3 =>
    intro e he
    have t1 := h1.tick_eq; have t2 := h2.tick_eq; have t4 := h3.tick_eq
    have t3 : σ2.tick ≤ (σ2.enter cid (E.tracing && E.filter fn && decide (σ.depth + 1 ≤ 1))).tick := by
      simp only [St.enter]; split <;> simp [St.emit]
    simp only [St.inc, St.dec, St.emit, Job.own] at t1 t2 t4 ih1 ih2 ih3 ⊢
    simp only [List.mem_append, List.mem_cons, List.not_mem_nil, or_false] at he
    rcases he with he | he | he | rfl | he | rfl
    · exact (ih1 e he).mono (by omega) (by omega)
    · exact (ih2 e he).mono (by omega) (by omega)
    · exact .self (entryEv_own he)
    · exact .self rfl
    · exact ((ih3 e he).of_none _).mono (by omega) (by omega)
    · exact .self rfl
  | @trapMock cid fn recv σ e1 σ1 e2 σ2 e3 σ3 L L2 m h1 _ _ h2 _ _ _ h3 ih1 ih2 ih3 =>
    intro e he
    have t1 := h1.tick_eq; have t2 := h2.tick_eq; have t4 := h3.tick_eq
    have t3 : σ2.tick ≤ (σ2.enter cid (E.tracing && E.filter fn && decide (σ.depth + 1 ≤ 1))).tick := by
      simp only [St.enter]; split <;> simp [St.emit]
    simp only [St.inc, St.dec, St.emit, Job.own] at t1 t2 t4 ih1 ih2 ih3 ⊢
    simp only [List.mem_append, List.mem_cons, List.not_mem_nil, or_false] at he
    rcases he with he | he | he | rfl | he | rfl
    · exact (ih1 e he).mono (by omega) (by omega)
    · exact (ih2 e he).mono (by omega) (by omega)
    · exact .self (entryEv_own he)
    · exact .self rfl
    · exact ((ih3 e he).of_none _).mono (by omega) (by omega)
    · exact .self rfl
  | hooksP _ _ h1 ih1 =>
    intro e he
    have t1 := h1.tick_eq
    simp only [St.emit, Job.own] at t1 ih1 ⊢
    simp only [List.mem_append, List.mem_cons, List.not_mem_nil, or_false] at he
    rcases he with rfl | he | rfl
    · exact .self rfl
    · exact ((ih1 e he).of_none _).mono (by omega) (by omega)
    · exact .self rfl
  | hooksStop _ _ h1 _ ih1 =>
    intro e he
    have t1 := h1.tick_eq
    simp only [St.emit, Job.own] at t1 ih1 ⊢
    simp only [List.mem_append, List.mem_cons, List.not_mem_nil, or_false] at he
    rcases he with rfl | he | rfl | rfl
    · exact .self rfl
    · exact ((ih1 e he).of_none _).mono (by omega) (by omega)
    · exact .self rfl
    · exact .self rfl
  | hooksPre _ _ h1 _ h2 ih1 ih2 =>
    intro e he
    have t1 := h1.tick_eq; have t2 := h2.tick_eq
    simp only [St.emit, Job.own] at t1 t2 ih1 ih2 ⊢
    simp only [List.mem_append, List.mem_cons] at he
    rcases he with rfl | he | rfl | he
    · exact .self rfl
    · exact ((ih1 e he).of_none _).mono (by omega) (by omega)
    · exact .self rfl
    · exact (ih2 e he).mono (by omega) (by omega)
  | postT h1 ih1 =>
    intro e he
    have t1 := h1.tick_eq
    simp only [St.emit, St.inc, St.dec, Job.own] at t1 ih1 ⊢
    simp only [List.mem_append, List.mem_cons, List.not_mem_nil, or_false] at he
    rcases he with he | rfl
    · exact (ih1 e he).mono (by omega) (by omega)
    · exact .self rfl
  | postsBad _ => intro e he; simp at he; subst he; exact .self rfl
  | postsP _ _ h1 ih1 =>
    intro e he
    have t1 := h1.tick_eq
    simp only [St.emit, Job.own] at t1 ih1 ⊢
    simp only [List.mem_append, List.mem_cons, List.not_mem_nil, or_false] at he
    rcases he with rfl | he | rfl
    · exact .self rfl
    · exact ((ih1 e he).of_none _).mono (by omega) (by omega)
    · exact .self rfl
  | postsOk _ _ h1 h2 ih1 ih2 =>
    intro e he
    have t1 := h1.tick_eq; have t2 := h2.tick_eq
    simp only [St.emit, Job.own] at t1 t2 ih1 ih2 ⊢
    simp only [List.mem_append, List.mem_cons] at he
    rcases he with rfl | he | rfl | he
    · exact .self rfl
    · exact ((ih1 e he).of_none _).mono (by omega) (by omega)
    · exact .self rfl
    · exact (ih2 e he).mono (by omega) (by omega)

end Verif.Runtime.Exec
