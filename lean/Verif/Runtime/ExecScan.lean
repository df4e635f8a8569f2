/- The trace describes the call tree when no hook panics. -/
import Verif.Runtime.ExecLemmas

namespace Verif.Runtime.Exec

/-- no hook of these events panics -/
def noHookPanic (l : List Ev) : Prop := ∀ c, Ev.hookPanic c ∉ l ∧ Ev.nilPost c ∉ l

theorem noHookPanic_append {a b} : noHookPanic (a ++ b) ↔ noHookPanic a ∧ noHookPanic b := by
  simp only [noHookPanic, List.mem_append]
  constructor
  · intro h; exact ⟨fun c => ⟨fun x => (h c).1 (.inl x), fun x => (h c).2 (.inl x)⟩,
      fun c => ⟨fun x => (h c).1 (.inr x), fun x => (h c).2 (.inr x)⟩⟩
  · rintro ⟨h1, h2⟩ c
    exact ⟨fun x => x.elim (h1 c).1 (h2 c).1, fun x => x.elim (h1 c).2 (h2 c).2⟩

theorem noHookPanic_cons {e b} : noHookPanic (e :: b) ↔ noHookPanic [e] ∧ noHookPanic b :=
  noHookPanic_append (a := [e])

theorem not_noHookPanic_hookPanic (c) : ¬ noHookPanic [.hookPanic c] := fun h => (h c).1 (by simp)
theorem not_noHookPanic_nilPost (c) : ¬ noHookPanic [.nilPost c] := fun h => (h c).2 (by simp)

def Neutral (σ : St) (ev : List Ev) (σ' : St) : Prop :=
  σ'.top = σ.top ∧ ∀ fs l, σ.top = nearest fs → scan fs (ev ++ l) = scan fs l

def ScanOK : Job → St → List Ev → Out → St → Prop
  | .stmts _, σ, ev, _, σ' | .stmt _, σ, ev, _, σ' => Neutral σ ev σ'
  | .hooks _ _ _ _ L, σ, ev, .loop L', σ' => Neutral σ ev σ' ∧ (L.panicked = false → L'.panicked = false)
  | .posts _ _, σ, ev, .done p, σ' => Neutral σ ev σ' ∧ p = false
  | .trap c _ _, σ, ev, .trapped (some (_, tr, _)), σ' =>
    (∀ old, tr = some old → old = σ.top) ∧
    (σ'.top = if tr.isSome then some c else σ.top) ∧
    ∀ fs l, σ.top = nearest fs → scan (⟨c, false, none⟩ :: fs) (ev ++ l) = scan (⟨c, tr.isSome, none⟩ :: fs) l
  | .trap _ _ _, _, _, .trapped none, _ => False
  | .post c _ tr p, σ, ev, .done p2, σ' =>
    p2 = false ∧ (σ'.top = match tr with | none => σ.top | some old => old) ∧
    ∀ fs l, σ.top = nearest (⟨c, tr.isSome, none⟩ :: fs) →
      scan (⟨c, tr.isSome, none⟩ :: fs) (ev ++ l) = scan (⟨c, tr.isSome, tr.map fun _ => p⟩ :: fs) l
  | _, _, _, _, _ => True

theorem neutral_refl (σ : St) : Neutral σ [] σ := ⟨rfl, fun _ _ _ => rfl⟩

theorem Neutral.trans {σ σ1 σ2 : St} {a b} (h1 : Neutral σ a σ1) (h2 : Neutral σ1 b σ2) : Neutral σ (a ++ b) σ2 := by
  refine ⟨by rw [h2.1, h1.1], fun fs l h => ?_⟩
  rw [List.append_assoc, h1.2 fs _ h, h2.2 fs l (by rw [h1.1, h])]

/-- an event the scan ignores -/
def Ev.plain : Ev → Bool
  | .call .. | .entry .. | .finish .. | .callEnd .. => false
  | _ => true

theorem scan_plain {e : Ev} (h : e.plain = true) (fs l) : scan fs (e :: l) = scan fs l := by
  cases e <;> simp [Ev.plain] at h <;> cases fs <;> rfl

theorem Neutral.plain {σ : St} {e} (h : e.plain = true) (σ' : St) (ht : σ'.top = σ.top) : Neutral σ [e] σ' :=
  ⟨ht, fun fs l _ => scan_plain h fs l⟩

/-- a change of state that keeps the top -/
theorem Neutral.congr {σ σ' σ1 σ1' : St} {e} (h : Neutral σ e σ') (h1 : σ1.top = σ.top) (h2 : σ1'.top = σ'.top) :
    Neutral σ1 e σ1' := ⟨by rw [h2, h.1, h1], fun fs l hx => h.2 fs l (by rw [← h1, hx])⟩

theorem St.emit_top (σ : St) (e) : (σ.emit e).top = σ.top := rfl
theorem St.inc_top (σ : St) : σ.inc.top = σ.top := rfl
theorem St.dec_top (σ : St) : σ.dec.top = σ.top := rfl
theorem St.enter_top (σ : St) (c t) : (σ.enter c t).top = if t then some c else σ.top := by
  cases t <;> rfl

theorem scan_entryEv {σ : St} {c t fs l} (h : σ.top = nearest fs) :
    scan (⟨c, false, none⟩ :: fs) (entryEv σ c t ++ l) = scan (⟨c, t, none⟩ :: fs) l := by
  cases t
  · rfl
  · simp [entryEv, scan, h]

theorem isSome_trOf (σ t) : (trOf σ t).isSome = t := by cases t <;> rfl
theorem trOf_old {σ : St} {t old} (h : trOf σ t = some old) : old = σ.top := by
  cases t <;> simp [trOf] at h; exact h.symm

theorem nearest_untraced (c o fs) : nearest (⟨c, false, o⟩ :: fs) = nearest fs := rfl

theorem Run.scanOK {E j σ ev o σ'} (h : Run E j σ ev o σ') (hn : noHookPanic ev) : ScanOK j σ ev o σ' := by
  induction h with
  | nil | panic => exact neutral_refl _
  | hooksNil => exact ⟨neutral_refl _, id⟩
  | postsNil => exact ⟨neutral_refl _, rfl⟩
  | consP _ ih => exact ih hn
  | protect _ ih => exact ih hn
  | cons _ _ ih1 ih2 =>
    rw [noHookPanic_append] at hn
    exact (ih1 hn.1).trans (ih2 hn.2)
  | callTP _ ih =>
    rw [noHookPanic_cons, noHookPanic_append] at hn
    exact (ih hn.2.1).elim
  | @callStop fn recv body σ e1 σ1 e2 σ2 ps tr p _ _ ih1 ih2 =>
    rw [noHookPanic_cons, noHookPanic_append, noHookPanic_append] at hn
    obtain ⟨a1, a2, a3⟩ := ih1 hn.2.1
    obtain ⟨b1, b2, b3⟩ := ih2 hn.2.2.1
    simp only [St.emit_top] at a1 a2 a3
    subst b1
    refine ⟨?_, fun fs l hf => ?_⟩
    · rw [St.emit_top, b2]
      cases tr with
      | none => simpa using a2
      | some old => exact a1 old rfl
    · have hnear : σ1.top = nearest (⟨σ.tick, tr.isSome, none⟩ :: fs) := by
        rw [a2, hf]; simp [nearest]
      simp only [List.cons_append, List.append_assoc, scan]
      rw [a3 fs _ hf, b3 fs _ hnear]
      cases tr <;> simp [scan]
  | @callRun fn recv body σ e1 σ1 e2 σ2 e3 σ3 ps tr p p2 _ _ _ ih1 ih2 ih3 =>
    rw [noHookPanic_cons, noHookPanic_append, noHookPanic_cons (e := Ev.orig _), noHookPanic_append, noHookPanic_append] at hn
    obtain ⟨a1, a2, a3⟩ := ih1 hn.2.1
    obtain ⟨c1, c2⟩ := ih2 hn.2.2.2.1
    obtain ⟨b1, b2, b3⟩ := ih3 hn.2.2.2.2.1
    simp only [St.emit_top] at a1 a2 a3 c1 c2
    subst b1
    refine ⟨?_, fun fs l hf => ?_⟩
    · rw [St.emit_top, b2]
      cases tr with
      | none => simp only; rw [c1]; simpa using a2
      | some old => exact a1 old rfl
    · have hnear : σ1.top = nearest (⟨σ.tick, tr.isSome, none⟩ :: fs) := by
        rw [a2, hf]; simp [nearest]
      simp only [List.cons_append, List.append_assoc, scan]
      rw [a3 fs _ hf, scan_plain rfl, c2 _ _ hnear, b3 fs _ (by rw [c1, hnear])]
      cases tr <;> simp [scan]
  | trapP1 _ hp ih => have := (ih hn).2 rfl; rw [hp] at this; cases this
  | trapP2 _ _ _ _ hp _ ih =>
    rw [noHookPanic_append] at hn
    have := (ih hn.2).2 rfl; rw [hp] at this; cases this
  | trapStop1 _ _ _ ih =>
    rw [noHookPanic_append] at hn
    obtain ⟨⟨a1, a2⟩, -⟩ := ih hn.1
    rw [St.inc_top] at a1 a2
    refine ⟨fun old ho => ?_, ?_, fun fs l hf => ?_⟩
    · rw [trOf_old ho, a1]
    · rw [St.dec_top, St.enter_top, isSome_trOf, a1]
    · rw [List.append_assoc, a2 _ _ (by rw [hf]; rfl), scan_entryEv (by rw [a1, hf]), isSome_trOf]
  | trapStop2 _ _ _ _ _ _ ih1 ih2 =>
    rw [noHookPanic_append, noHookPanic_append] at hn
    obtain ⟨⟨a1, a2⟩, -⟩ := ih1 hn.1
    obtain ⟨⟨b1, b2⟩, -⟩ := ih2 hn.2.1
    rw [St.inc_top] at a1 a2
    refine ⟨fun old ho => ?_, ?_, fun fs l hf => ?_⟩
    · rw [trOf_old ho, b1, a1]
    · rw [St.dec_top, St.enter_top, isSome_trOf, b1, a1]
    · rw [List.append_assoc, List.append_assoc, a2 _ _ (by rw [hf]; rfl), b2 _ _ (by rw [a1, hf]; rfl),
        scan_entryEv (by rw [b1, a1, hf]), isSome_trOf]
  | trapNoMock _ _ _ _ _ _ _ ih1 ih2 =>
    rw [noHookPanic_append, noHookPanic_append] at hn
    obtain ⟨⟨a1, a2⟩, -⟩ := ih1 hn.1
    obtain ⟨⟨b1, b2⟩, -⟩ := ih2 hn.2.1
    rw [St.inc_top] at a1 a2
    refine ⟨fun old ho => ?_, ?_, fun fs l hf => ?_⟩
    · rw [trOf_old ho, b1, a1]
    · rw [St.dec_top, St.enter_top, isSome_trOf, b1, a1]
    · rw [List.append_assoc, List.append_assoc, a2 _ _ (by rw [hf]; rfl), b2 _ _ (by rw [a1, hf]; rfl),
        scan_entryEv (by rw [b1, a1, hf]), isSome_trOf]
  | trapMockP _ _ _ _ _ _ _ _ _ _ _ =>
    simp only [noHookPanic_append, noHookPanic_cons (b := _ ++ _)] at hn
    exact absurd hn.2.2.2.2.2 (not_noHookPanic_hookPanic _)
  | @trapMock cid fn recv σ e1 σ1 e2 σ2 e3 σ3 L L2 m _ _ _ _ _ _ _ _ ih1 ih2 ih3 =>
    simp only [noHookPanic_append, noHookPanic_cons (b := _ ++ _)] at hn
    obtain ⟨⟨a1, a2⟩, -⟩ := ih1 hn.1
    obtain ⟨⟨b1, b2⟩, -⟩ := ih2 hn.2.1
    obtain ⟨c1, c2⟩ := ih3 hn.2.2.2.2.1
    rw [St.inc_top] at a1 a2
    rw [St.emit_top, St.enter_top] at c1 c2
    refine ⟨fun old ho => ?_, ?_, fun fs l hf => ?_⟩
    · rw [trOf_old ho, b1, a1]
    · rw [St.dec_top, St.emit_top, c1, isSome_trOf, b1, a1]
    · simp only [List.append_assoc, List.cons_append]
      rw [a2 _ _ (by rw [hf]; rfl), b2 _ _ (by rw [a1, hf]; rfl),
        scan_entryEv (by rw [b1, a1, hf]), isSome_trOf, scan_plain rfl, c2 _ _ (by rw [b1, a1, hf]; simp [nearest]), scan_plain rfl]
      rfl
  | hooksSkip _ _ _ ih => exact ih hn
  | hooksNoPre _ _ _ ih => exact ih hn
  | hooksP _ _ _ _ =>
    rw [noHookPanic_cons, noHookPanic_append] at hn
    exact absurd hn.2.2 (not_noHookPanic_hookPanic _)
  | hooksStop _ _ _ _ ih =>
    rw [noHookPanic_cons, noHookPanic_append] at hn
    refine ⟨?_, id⟩
    refine Neutral.trans (a := [_]) (Neutral.plain rfl _ (St.emit_top _ _)) ((ih hn.2.1).trans ?_)
    exact Neutral.trans (a := [_]) (Neutral.plain rfl _ (St.emit_top _ _)) (Neutral.plain rfl _ (St.emit_top _ _))
  | hooksPre _ _ _ _ _ ih1 ih2 =>
    rw [noHookPanic_cons, noHookPanic_append, noHookPanic_cons (e := Ev.preEnd _ _ _)] at hn
    obtain ⟨i2, i3⟩ := ih2 hn.2.2.2
    refine ⟨?_, i3⟩
    refine Neutral.trans (a := [_]) (Neutral.plain rfl _ (St.emit_top _ _)) ((ih1 hn.2.1).trans ?_)
    exact Neutral.trans (a := [_]) (Neutral.plain rfl _ (St.emit_top _ _)) i2
  | postP _ ih => exact absurd (ih hn).2 (by simp)
  | postU _ ih =>
    obtain ⟨⟨a1, a2⟩, -⟩ := ih hn
    exact ⟨rfl, a1, fun fs l hf => a2 _ _ hf⟩
  | postT _ ih =>
    rw [noHookPanic_append] at hn
    obtain ⟨⟨a1, a2⟩, -⟩ := ih hn.1
    refine ⟨rfl, rfl, fun fs l hf => ?_⟩
    rw [List.append_assoc, a2 _ _ hf]
    simp [scan]
  | postsBad _ => exact absurd hn (not_noHookPanic_nilPost _)
  | postsP _ _ _ _ =>
    rw [noHookPanic_cons, noHookPanic_append] at hn
    exact absurd hn.2.2 (not_noHookPanic_hookPanic _)
  | postsOk _ _ _ _ ih1 ih2 =>
    rw [noHookPanic_cons, noHookPanic_append, noHookPanic_cons (e := Ev.postEnd _ _ _)] at hn
    obtain ⟨i2, i3⟩ := ih2 hn.2.2.2
    refine ⟨?_, i3⟩
    refine Neutral.trans (a := [_]) (Neutral.plain rfl _ (St.emit_top _ _)) ((ih1 hn.2.1).trans ?_)
    exact Neutral.trans (a := [_]) (Neutral.plain rfl _ (St.emit_top _ _)) i2

end Verif.Runtime.Exec
