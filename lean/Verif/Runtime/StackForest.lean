/- The log of a run without hook panics is a forest in the sense of the specification. -/
import Verif.Runtime.ExecScan
import Verif.Runtime.StackSpec

namespace Verif.Runtime.Stack
open Exec

theorem Forest.append {i a f b g} (h : Forest i a f) (k : Forest (i + a.length) b g) : Forest i (a ++ b) (f ++ g) := by
  induction h with
  | nil => simpa using k
  | plain h1 h2 h3 h4 _ ih =>
    refine .plain h1 h2 h3 h4 (ih ?_)
    rw [List.length_cons] at k
    have e : ∀ x y : Nat, x + (y + 1) = x + 1 + y := by omega
    rwa [e] at k
  | @untraced i fn r p body l f g' hb _ _ ih2 =>
    simp only [List.cons_append, List.append_assoc]
    refine .untraced hb (ih2 ?_)
    simp only [List.length_cons, List.length_append] at k
    have e : i + (body.length + (l.length + 1) + 1) = i + body.length + 2 + l.length := by omega
    rwa [e] at k
  | @traced i fn r par p e1 e2 l f1 f2 g' h1 h2 _ _ _ ih =>
    simp only [List.cons_append, List.append_assoc]
    refine .traced h1 h2 (ih ?_)
    simp only [List.length_cons, List.length_append] at k
    have e : i + (e1.length + (e2.length + (l.length + 1 + 1) + 1) + 1) = i + e1.length + e2.length + 4 + l.length := by omega
    rwa [e] at k

theorem Forest.one {i : Nat} {e : Ev} (h : e.plain = true) : Forest i [e] [] := by
  refine .plain ?_ ?_ ?_ ?_ (.nil _) <;> intros <;> rintro rfl <;> simp [Ev.plain] at h

/-- the shape of the events of each kind of job -/
def Shape : Job → St → List Ev → Out → Prop
  | .stmts _, σ, ev, _ | .stmt _, σ, ev, _ | .hooks .., σ, ev, _ | .posts .., σ, ev, _ => ∃ f, Forest σ.tick ev f
  | .trap c _ _, σ, ev, .trapped (some (_, tr, _)) =>
    match tr with
    | none => ∃ f, Forest σ.tick ev f
    | some _ => ∃ e1 par e2 f1 f2, ev = e1 ++ .entry c par :: e2 ∧ Forest σ.tick e1 f1 ∧ Forest (σ.tick + e1.length + 1) e2 f2
  | .trap _ _ _, _, _, _ => False
  | .post c _ tr p, σ, ev, _ =>
    match tr with
    | none => ∃ f, Forest σ.tick ev f
    | some _ => ∃ e f, ev = e ++ [.finish c p] ∧ Forest σ.tick e f

theorem forest_congr {i j l f} (h : Forest i l f) (e : i = j) : Forest j l f := e ▸ h

theorem shape_enter {σ0 σ2 : St} {c t e f} {e3 f3} (h : Forest σ0.tick e f) (ht : σ2.tick = σ0.tick + e.length)
    (h3 : Forest (σ2.enter c t).tick e3 f3) (ps : List PostC) (b : Bool) (fn recv) :
    Shape (.trap c fn recv) σ0 (e ++ (entryEv σ2 c t ++ e3)) (.trapped (some (ps, trOf σ2 t, b))) := by
  cases t with
  | false =>
    simp only [Shape, trOf, entryEv, St.enter] at *
    exact ⟨_, h.append (forest_congr h3 (by simpa using ht))⟩
  | true =>
    simp only [Shape, trOf, entryEv, St.enter] at *
    refine ⟨e, σ2.top, e3, f, f3, by simp, h, forest_congr h3 ?_⟩
    simp [St.emit, ht]

theorem Run.shape {E j σ ev o σ'} (h : Run E j σ ev o σ') (hn : noHookPanic ev) : Shape j σ ev o := by
  have P : ∀ {σ : St} {e f}, Forest σ.inc.tick e f → Forest σ.tick e f := fun h => h
  induction h with
  | nil | panic | hooksNil | postsNil => exact ⟨_, .nil _⟩
  | consP _ ih => exact ih hn
  | protect _ ih => exact ih hn
  | cons r1 _ ih1 ih2 =>
    rw [noHookPanic_append] at hn
    obtain ⟨f, hf⟩ := ih1 hn.1
    obtain ⟨g, hg⟩ := ih2 hn.2
    exact ⟨_, hf.append (forest_congr hg r1.tick_eq)⟩
  | callTP _ ih =>
    rw [noHookPanic_cons, noHookPanic_append] at hn
    exact (ih hn.2.1).elim
  | @callStop fn recv body σ e1 σ1 e2 σ2 ps tr p r1 r2 ih1 ih2 =>
    rw [noHookPanic_cons, noHookPanic_append, noHookPanic_append] at hn
    have i1 := ih1 hn.2.1
    have i2 := ih2 hn.2.2.1
    have t1 := r1.tick_eq
    have hp := (r2.scanOK hn.2.2.1).1
    subst hp
    cases tr with
    | none =>
      obtain ⟨f, hf⟩ := i1
      obtain ⟨g, hg⟩ := i2
      have hfg := hf.append (forest_congr hg t1)
      have := Forest.untraced (fn := fn) (r := recv) (p := false) hfg (.nil _)
      refine ⟨_, by simpa using this⟩
    | some old =>
      obtain ⟨a1, par, a2, f1, f2, rfl, hf1, hf2⟩ := i1
      obtain ⟨b, g, rfl, hg⟩ := i2
      have h2 := hf2.append (forest_congr hg (by rw [t1]; simp; omega))
      have := Forest.traced (i := σ.tick) (fn := fn) (r := recv) (par := par) (p := false) hf1
        (forest_congr h2 (by simp [St.emit]; omega)) (.nil _)
      refine ⟨_, by simpa using this⟩
  | @callRun fn recv body σ e1 σ1 e2 σ2 e3 σ3 ps tr p p2 r1 r2 r3 ih1 ih2 ih3 =>
    rw [noHookPanic_cons, noHookPanic_append, noHookPanic_cons (e := Ev.orig _), noHookPanic_append, noHookPanic_append] at hn
    have i1 := ih1 hn.2.1
    obtain ⟨fb, hb⟩ := ih2 hn.2.2.2.1
    have i3 := ih3 hn.2.2.2.2.1
    have hp := (r3.scanOK hn.2.2.2.2.1).1
    subst hp
    have t1 := r1.tick_eq
    have t2 := r2.tick_eq
    have ho : Forest σ1.tick (.orig σ.tick :: e2) fb := by
      have := (Forest.one (i := σ1.tick) (e := .orig σ.tick) rfl).append (forest_congr hb (by simp [St.emit]))
      simpa using this
    cases tr with
    | none =>
      obtain ⟨f, hf⟩ := i1
      obtain ⟨g, hg⟩ := i3
      have hfg := hf.append (forest_congr (ho.append (forest_congr hg (by rw [t2]; simp [St.emit]; omega))) t1)
      have := Forest.untraced (fn := fn) (r := recv) (p := p) hfg (.nil _)
      refine ⟨_, by simpa using this⟩
    | some old =>
      obtain ⟨a1, par, a2, f1, f2, rfl, hf1, hf2⟩ := i1
      obtain ⟨b, g, rfl, hg⟩ := i3
      have h2 := hf2.append (forest_congr (ho.append (forest_congr hg (by rw [t2]; simp [St.emit]; omega))) (by rw [t1]; simp; omega))
      have := Forest.traced (i := σ.tick) (fn := fn) (r := recv) (par := par) (p := p) hf1
        (forest_congr h2 (by simp [St.emit]; omega)) (.nil _)
      refine ⟨_, by simpa using this⟩
  | trapP1 r hp => have := (r.scanOK hn).2 rfl; rw [hp] at this; cases this
  | trapP2 _ _ _ r hp _ ih =>
    rw [noHookPanic_append] at hn
    have := (r.scanOK hn.2).2 rfl; rw [hp] at this; cases this
  | @trapStop1 cid fn recv σ e1 σ1 L r _ _ ih =>
    rw [noHookPanic_append] at hn
    obtain ⟨f, hf⟩ := ih hn.1
    have := shape_enter (c := cid) (t := E.tracing && E.filter fn) (P hf) r.tick_eq (.nil _) (L.closures false) true fn recv
    simpa using this
  | @trapStop2 cid fn recv σ e1 σ1 e2 σ2 L L2 r1 _ _ r2 _ _ ih1 ih2 =>
    rw [noHookPanic_append, noHookPanic_append] at hn
    obtain ⟨f, hf⟩ := ih1 hn.1
    obtain ⟨g, hg⟩ := ih2 hn.2.1
    have t1 := r1.tick_eq
    have t2 := r2.tick_eq
    have := shape_enter (c := cid) (t := E.tracing && E.filter fn) (P (hf.append (forest_congr hg t1)))
      (by rw [t2, t1]; simp [St.inc]; omega) (.nil _) (L.closures false ++ L2.closures true) true fn recv
    simpa using this
  | @trapNoMock cid fn recv σ e1 σ1 e2 σ2 L L2 r1 _ _ r2 _ _ _ ih1 ih2 =>
    rw [noHookPanic_append, noHookPanic_append] at hn
    obtain ⟨f, hf⟩ := ih1 hn.1
    obtain ⟨g, hg⟩ := ih2 hn.2.1
    have t1 := r1.tick_eq
    have t2 := r2.tick_eq
    have := shape_enter (c := cid) (t := E.tracing && E.filter fn && decide (σ.depth + 1 ≤ 1)) (P (hf.append (forest_congr hg t1)))
      (by rw [t2, t1]; simp [St.inc]; omega) (.nil _) (L.closures false ++ L2.closures true) false fn recv
    simpa using this
  | trapMockP _ _ _ _ _ _ _ _ _ _ _ =>
    simp only [noHookPanic_append, noHookPanic_cons (b := _ ++ _)] at hn
    exact absurd hn.2.2.2.2.2 (not_noHookPanic_hookPanic _)
  | @trapMock cid fn recv σ e1 σ1 e2 σ2 e3 σ3 L L2 m r1 _ _ r2 _ _ _ r3 ih1 ih2 ih3 =>
    simp only [noHookPanic_append, noHookPanic_cons (b := _ ++ _)] at hn
    obtain ⟨f, hf⟩ := ih1 hn.1
    obtain ⟨g, hg⟩ := ih2 hn.2.1
    obtain ⟨k, hk⟩ := ih3 hn.2.2.2.2.1
    have t1 := r1.tick_eq
    have t2 := r2.tick_eq
    have h3 := (Forest.one (e := .mock cid m.id) rfl).append (hk.append (Forest.one (e := .mockEnd cid m.id) rfl))
    have := shape_enter (c := cid) (t := E.tracing && E.filter fn && decide (σ.depth + 1 ≤ 1)) (P (hf.append (forest_congr hg t1)))
      (by rw [t2, t1]; simp [St.inc]; omega) h3 (L.closures false ++ L2.closures true)
      (E.mockBeh m.id (σ2.enter cid (E.tracing && E.filter fn && decide (σ.depth + 1 ≤ 1))).tick).ok fn recv
    simpa using this
  | hooksSkip _ _ _ ih => exact ih hn
  | hooksNoPre _ _ _ ih => exact ih hn
  | hooksP _ _ _ _ =>
    rw [noHookPanic_cons, noHookPanic_append] at hn
    exact absurd hn.2.2 (not_noHookPanic_hookPanic _)
  | @hooksStop cid gen recv h hs σ e σ' L _ _ r _ ih =>
    rw [noHookPanic_cons, noHookPanic_append] at hn
    obtain ⟨f, hf⟩ := ih hn.2.1
    have h3 := (Forest.one (i := σ.tick) (e := .pre cid gen h.id σ.tick) rfl).append
      (hf.append ((Forest.one (e := .preEnd cid gen h.id) rfl).append (Forest.one (e := .abort cid h.id) rfl)))
    exact ⟨_, by simpa using h3⟩
  | @hooksPre cid gen recv h hs σ e σ' e' σ'' L L' _ _ r _ r2 ih1 ih2 =>
    rw [noHookPanic_cons, noHookPanic_append, noHookPanic_cons (e := Ev.preEnd _ _ _)] at hn
    obtain ⟨f, hf⟩ := ih1 hn.2.1
    obtain ⟨g, hg⟩ := ih2 hn.2.2.2
    have t1 := r.tick_eq
    have h3 := (Forest.one (i := σ.tick) (e := .pre cid gen h.id σ.tick) rfl).append
      (hf.append ((Forest.one (e := .preEnd cid gen h.id) rfl).append (forest_congr hg (by simp [St.emit, t1]))))
    exact ⟨_, by simpa using h3⟩
  | postP r _ => exact absurd (r.scanOK hn).2 (by simp)
  | postU _ ih => exact ih hn
  | postT _ ih =>
    rw [noHookPanic_append] at hn
    obtain ⟨f, hf⟩ := ih hn.1
    exact ⟨_, f, rfl, hf⟩
  | postsBad _ => exact absurd hn (not_noHookPanic_nilPost _)
  | postsP _ _ _ _ =>
    rw [noHookPanic_cons, noHookPanic_append] at hn
    exact absurd hn.2.2 (not_noHookPanic_hookPanic _)
  | @postsOk cid c cs h σ e σ' e' σ'' p _ _ r r2 ih1 ih2 =>
    rw [noHookPanic_cons, noHookPanic_append, noHookPanic_cons (e := Ev.postEnd _ _ _)] at hn
    obtain ⟨f, hf⟩ := ih1 hn.2.1
    obtain ⟨g, hg⟩ := ih2 hn.2.2.2
    have t1 := r.tick_eq
    have h3 := (Forest.one (i := σ.tick) (e := .post cid c.gen h.id c.data) rfl).append
      (hf.append ((Forest.one (e := .postEnd cid c.gen h.id) rfl).append (forest_congr hg (by simp [St.emit, t1]))))
    exact ⟨_, by simpa using h3⟩

end Verif.Runtime.Stack
