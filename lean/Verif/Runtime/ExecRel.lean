/- A relational presentation of the interpreter of `Verif.Runtime.Exec`, used for induction. -/
import Verif.Runtime.Exec

namespace Verif.Runtime.Exec

inductive Job where
  | stmts (ss : List Stmt)
  | stmt (s : Stmt)
  | trap (cid fn : Nat) (recv : Option Nat)
  | hooks (cid : Nat) (gen : Bool) (recv : Option Nat) (hs : List Handler) (L : Loop)
  | post (cid : Nat) (posts : List PostC) (traced : Option (Option Nat)) (p : Bool)
  | posts (cid : Nat) (cs : List PostC)

inductive Out where
  | done (p : Bool)
  | trapped (r : Option (List PostC × Option (Option Nat) × Bool))
  | loop (L : Loop)

/-- state after possibly pushing a trace entry -/
def St.enter (σ : St) (cid : Nat) (traced : Bool) : St :=
  if traced then { σ.emit (.entry cid σ.top) with top := some cid } else σ

def trOf (σ : St) (traced : Bool) : Option (Option Nat) := if traced then some σ.top else none

/-- the event emitted by `St.enter` -/
def entryEv (σ : St) (cid : Nat) (traced : Bool) : List Ev := if traced then [.entry cid σ.top] else []

/-- `Run E job σ ev out σ'`: the job, started in σ, emits the events `ev` and ends in σ' with outcome `out`. -/
inductive Run (E : Env) : Job → St → List Ev → Out → St → Prop where
  | nil (σ) : Run E (.stmts []) σ [] (.done false) σ
  | consP {s ss σ e σ'} : Run E (.stmt s) σ e (.done true) σ' → Run E (.stmts (s :: ss)) σ e (.done true) σ'
  | cons {s ss σ e1 σ1 e2 σ2 p} : Run E (.stmt s) σ e1 (.done false) σ1 → Run E (.stmts ss) σ1 e2 (.done p) σ2 →
      Run E (.stmts (s :: ss)) σ (e1 ++ e2) (.done p) σ2
  | panic (σ) : Run E (.stmt .panic) σ [] (.done true) σ
  | protect {b σ e p σ'} : Run E (.stmts b) σ e (.done p) σ' → Run E (.stmt (.protect b)) σ e (.done false) σ'
  | callTP {fn recv body σ e σ'} :
      Run E (.trap σ.tick fn recv) (σ.emit (.call σ.tick fn recv)) e (.trapped none) σ' →
      Run E (.stmt (.call fn recv body)) σ (.call σ.tick fn recv :: (e ++ [.callEnd σ.tick true])) (.done true)
        (σ'.emit (.callEnd σ.tick true))
  | callStop {fn recv body σ e1 σ1 e2 σ2 ps tr p} :
      Run E (.trap σ.tick fn recv) (σ.emit (.call σ.tick fn recv)) e1 (.trapped (some (ps, tr, true))) σ1 →
      Run E (.post σ.tick ps tr false) σ1 e2 (.done p) σ2 →
      Run E (.stmt (.call fn recv body)) σ (.call σ.tick fn recv :: (e1 ++ (e2 ++ [.callEnd σ.tick p]))) (.done p)
        (σ2.emit (.callEnd σ.tick p))
  | callRun {fn recv body σ e1 σ1 e2 σ2 e3 σ3 ps tr p p2} :
      Run E (.trap σ.tick fn recv) (σ.emit (.call σ.tick fn recv)) e1 (.trapped (some (ps, tr, false))) σ1 →
      Run E (.stmts body) (σ1.emit (.orig σ.tick)) e2 (.done p) σ2 →
      Run E (.post σ.tick ps tr p) σ2 e3 (.done p2) σ3 →
      Run E (.stmt (.call fn recv body)) σ
        (.call σ.tick fn recv :: (e1 ++ (.orig σ.tick :: (e2 ++ (e3 ++ [.callEnd σ.tick (p || p2)])))))
        (.done (p || p2)) (σ3.emit (.callEnd σ.tick (p || p2)))
  | trapP1 {cid fn recv σ e1 σ1 L} :
      Run E (.hooks cid false recv (E.recorders fn) Loop.start) σ.inc e1 (.loop L) σ1 → L.panicked = true →
      Run E (.trap cid fn recv) σ e1 (.trapped none) σ1.dec
  | trapP2 {cid fn recv σ e1 σ1 e2 σ2 L L2} :
      Run E (.hooks cid false recv (E.recorders fn) Loop.start) σ.inc e1 (.loop L) σ1 → L.panicked = false →
      L.stopped = false →
      Run E (.hooks cid true recv (if σ.depth + 1 ≤ 1 then E.interceptors else []) Loop.start) σ1 e2 (.loop L2) σ2 →
      L2.panicked = true →
      Run E (.trap cid fn recv) σ (e1 ++ e2) (.trapped none) σ2.dec
  | trapStop1 {cid fn recv σ e1 σ1 L} :
      Run E (.hooks cid false recv (E.recorders fn) Loop.start) σ.inc e1 (.loop L) σ1 → L.panicked = false →
      L.stopped = true →
      Run E (.trap cid fn recv) σ (e1 ++ entryEv σ1 cid (E.tracing && E.filter fn))
        (.trapped (some (L.closures false, trOf σ1 (E.tracing && E.filter fn), true)))
        (σ1.enter cid (E.tracing && E.filter fn)).dec
  | trapStop2 {cid fn recv σ e1 σ1 e2 σ2 L L2} :
      Run E (.hooks cid false recv (E.recorders fn) Loop.start) σ.inc e1 (.loop L) σ1 → L.panicked = false →
      L.stopped = false →
      Run E (.hooks cid true recv (if σ.depth + 1 ≤ 1 then E.interceptors else []) Loop.start) σ1 e2 (.loop L2) σ2 →
      L2.panicked = false → L2.stopped = true →
      Run E (.trap cid fn recv) σ (e1 ++ (e2 ++ entryEv σ2 cid (E.tracing && E.filter fn)))
        (.trapped (some (L.closures false ++ L2.closures true, trOf σ2 (E.tracing && E.filter fn), true)))
        (σ2.enter cid (E.tracing && E.filter fn)).dec
  | trapNoMock {cid fn recv σ e1 σ1 e2 σ2 L L2} :
      Run E (.hooks cid false recv (E.recorders fn) Loop.start) σ.inc e1 (.loop L) σ1 → L.panicked = false →
      L.stopped = false →
      Run E (.hooks cid true recv (if σ.depth + 1 ≤ 1 then E.interceptors else []) Loop.start) σ1 e2 (.loop L2) σ2 →
      L2.panicked = false → L2.stopped = false → E.activeMock fn recv = none →
      Run E (.trap cid fn recv) σ
        (e1 ++ (e2 ++ entryEv σ2 cid (E.tracing && E.filter fn && decide (σ.depth + 1 ≤ 1))))
        (.trapped (some (L.closures false ++ L2.closures true,
          trOf σ2 (E.tracing && E.filter fn && decide (σ.depth + 1 ≤ 1)), false)))
        (σ2.enter cid (E.tracing && E.filter fn && decide (σ.depth + 1 ≤ 1))).dec
  | trapMockP {cid fn recv σ e1 σ1 e2 σ2 e3 σ3 L L2 m} :
      Run E (.hooks cid false recv (E.recorders fn) Loop.start) σ.inc e1 (.loop L) σ1 → L.panicked = false →
      L.stopped = false →
      Run E (.hooks cid true recv (if σ.depth + 1 ≤ 1 then E.interceptors else []) Loop.start) σ1 e2 (.loop L2) σ2 →
      L2.panicked = false → L2.stopped = false → E.activeMock fn recv = some m →
      Run E (.stmts (E.mockBeh m.id (σ2.enter cid (E.tracing && E.filter fn && decide (σ.depth + 1 ≤ 1))).tick).body)
        ((σ2.enter cid (E.tracing && E.filter fn && decide (σ.depth + 1 ≤ 1))).emit (.mock cid m.id)) e3
        (.done true) σ3 →
      Run E (.trap cid fn recv) σ
        (e1 ++ (e2 ++ (entryEv σ2 cid (E.tracing && E.filter fn && decide (σ.depth + 1 ≤ 1)) ++
          (.mock cid m.id :: (e3 ++ [.hookPanic cid])))))
        (.trapped none) (σ3.emit (.hookPanic cid)).dec
  | trapMock {cid fn recv σ e1 σ1 e2 σ2 e3 σ3 L L2 m} :
      Run E (.hooks cid false recv (E.recorders fn) Loop.start) σ.inc e1 (.loop L) σ1 → L.panicked = false →
      L.stopped = false →
      Run E (.hooks cid true recv (if σ.depth + 1 ≤ 1 then E.interceptors else []) Loop.start) σ1 e2 (.loop L2) σ2 →
      L2.panicked = false → L2.stopped = false → E.activeMock fn recv = some m →
      Run E (.stmts (E.mockBeh m.id (σ2.enter cid (E.tracing && E.filter fn && decide (σ.depth + 1 ≤ 1))).tick).body)
        ((σ2.enter cid (E.tracing && E.filter fn && decide (σ.depth + 1 ≤ 1))).emit (.mock cid m.id)) e3
        (.done false) σ3 →
      Run E (.trap cid fn recv) σ
        (e1 ++ (e2 ++ (entryEv σ2 cid (E.tracing && E.filter fn && decide (σ.depth + 1 ≤ 1)) ++
          (.mock cid m.id :: (e3 ++ [.mockEnd cid m.id])))))
        (.trapped (some (L.closures false ++ L2.closures true,
          trOf σ2 (E.tracing && E.filter fn && decide (σ.depth + 1 ≤ 1)),
          (E.mockBeh m.id (σ2.enter cid (E.tracing && E.filter fn && decide (σ.depth + 1 ≤ 1))).tick).ok)))
        (σ3.emit (.mockEnd cid m.id)).dec
  | hooksNil {cid gen recv σ L} : Run E (.hooks cid gen recv [] L) σ [] (.loop L) σ
  | hooksSkip {cid gen recv h hs σ e σ' L L'} : gen = false → wantOk h.want recv = false →
      Run E (.hooks cid gen recv hs { L with cur := some h }) σ e (.loop L') σ' →
      Run E (.hooks cid gen recv (h :: hs) L) σ e (.loop L') σ'
  | hooksP {cid gen recv h hs σ e σ' L} : (gen = true ∨ wantOk h.want recv = true) → h.hasPre = true →
      Run E (.stmts (E.preBeh h.id σ.tick).body) (σ.emit (.pre cid gen h.id σ.tick)) e (.done true) σ' →
      Run E (.hooks cid gen recv (h :: hs) L) σ (.pre cid gen h.id σ.tick :: (e ++ [.hookPanic cid]))
        (.loop { L with cur := some h, panicked := true }) (σ'.emit (.hookPanic cid))
  | hooksStop {cid gen recv h hs σ e σ' L} : (gen = true ∨ wantOk h.want recv = true) → h.hasPre = true →
      Run E (.stmts (E.preBeh h.id σ.tick).body) (σ.emit (.pre cid gen h.id σ.tick)) e (.done false) σ' →
      (E.preBeh h.id σ.tick).stop = true →
      Run E (.hooks cid gen recv (h :: hs) L) σ
        (.pre cid gen h.id σ.tick :: (e ++ [.preEnd cid gen h.id, .abort cid h.id]))
        (.loop { L with cur := some h, stopped := true }) ((σ'.emit (.preEnd cid gen h.id)).emit (.abort cid h.id))
  | hooksPre {cid gen recv h hs σ e σ' e' σ'' L L'} : (gen = true ∨ wantOk h.want recv = true) → h.hasPre = true →
      Run E (.stmts (E.preBeh h.id σ.tick).body) (σ.emit (.pre cid gen h.id σ.tick)) e (.done false) σ' →
      (E.preBeh h.id σ.tick).stop = false →
      Run E (.hooks cid gen recv hs
        { L with cur := some h, posts := if h.hasPost then L.posts ++ [some σ.tick] else L.posts })
        (σ'.emit (.preEnd cid gen h.id)) e' (.loop L') σ'' →
      Run E (.hooks cid gen recv (h :: hs) L) σ
        (.pre cid gen h.id σ.tick :: (e ++ (.preEnd cid gen h.id :: e'))) (.loop L') σ''
  | hooksNoPre {cid gen recv h hs σ e σ'' L L'} : (gen = true ∨ wantOk h.want recv = true) → h.hasPre = false →
      Run E (.hooks cid gen recv hs
        { L with cur := some h, posts := if h.hasPost then L.posts ++ [none] else L.posts })
        σ e (.loop L') σ'' →
      Run E (.hooks cid gen recv (h :: hs) L) σ e (.loop L') σ''
  | postP {cid ps tr p σ e σ'} : Run E (.posts cid ps.reverse) σ.inc e (.done true) σ' →
      Run E (.post cid ps tr p) σ e (.done true) σ'.dec
  | postU {cid ps p σ e σ'} : Run E (.posts cid ps.reverse) σ.inc e (.done false) σ' →
      Run E (.post cid ps none p) σ e (.done false) σ'.dec
  | postT {cid ps old p σ e σ'} : Run E (.posts cid ps.reverse) σ.inc e (.done false) σ' →
      Run E (.post cid ps (some old) p) σ (e ++ [.finish cid p]) (.done false)
        ({ σ'.emit (.finish cid p) with top := old }).dec
  | postsNil {cid σ} : Run E (.posts cid []) σ [] (.done false) σ
  | postsBad {cid c cs σ} : (∀ h, c.h = some h → h.hasPost = false) →
      Run E (.posts cid (c :: cs)) σ [.nilPost cid] (.done true) (σ.emit (.nilPost cid))
  | postsP {cid c cs h σ e σ'} : c.h = some h → h.hasPost = true →
      Run E (.stmts (E.postBeh h.id σ.tick)) (σ.emit (.post cid c.gen h.id c.data)) e (.done true) σ' →
      Run E (.posts cid (c :: cs)) σ (.post cid c.gen h.id c.data :: (e ++ [.hookPanic cid])) (.done true)
        (σ'.emit (.hookPanic cid))
  | postsOk {cid c cs h σ e σ' e' σ'' p} : c.h = some h → h.hasPost = true →
      Run E (.stmts (E.postBeh h.id σ.tick)) (σ.emit (.post cid c.gen h.id c.data)) e (.done false) σ' →
      Run E (.posts cid cs) (σ'.emit (.postEnd cid c.gen h.id)) e' (.done p) σ'' →
      Run E (.posts cid (c :: cs)) σ
        (.post cid c.gen h.id c.data :: (e ++ (.postEnd cid c.gen h.id :: e'))) (.done p) σ''

theorem run_of_exec (E : Env) (n : Nat) :
    (∀ σ ss σ' p, execStmts E n σ ss = some (σ', p) → ∃ e, Run E (.stmts ss) σ e (.done p) σ') ∧
    (∀ σ s σ' p, execStmt E n σ s = some (σ', p) → ∃ e, Run E (.stmt s) σ e (.done p) σ') ∧
    (∀ σ cid fn recv σ' r, execTrap E n σ cid fn recv = some (σ', r) →
      ∃ e, Run E (.trap cid fn recv) σ e (.trapped r) σ') ∧
    (∀ σ cid gen recv hs L σ' L', runHooks E n σ cid gen recv hs L = some (σ', L') →
      ∃ e, Run E (.hooks cid gen recv hs L) σ e (.loop L') σ') ∧
    (∀ σ cid ps tr p σ' p', execPost E n σ cid ps tr p = some (σ', p') →
      ∃ e, Run E (.post cid ps tr p) σ e (.done p') σ') ∧
    (∀ σ cid cs σ' p', runPosts E n σ cid cs = some (σ', p') →
      ∃ e, Run E (.posts cid cs) σ e (.done p') σ') := by
  induction n with
  | zero =>
    refine ⟨?_, ?_, ?_, ?_, ?_, ?_⟩
    · intros; simp_all [execStmts]
    · intros; simp_all [execStmt]
    · intros; simp_all [execTrap]
    · intros; simp_all [runHooks]
    · intros; simp_all [execPost]
    · intros; simp_all [runPosts]
  | succ n ih =>
    obtain ⟨ihSS, ihS, ihT, ihH, ihP, ihPs⟩ := ih
    refine ⟨?_, ?_, ?_, ?_, ?_, ?_⟩
    · intro σ ss σ' p h
      cases ss with
      | nil => simp only [execStmts, Option.some.injEq, Prod.mk.injEq] at h
               obtain ⟨rfl, rfl⟩ := h; exact ⟨_, .nil _⟩
      | cons s ss =>
        simp only [execStmts] at h
        split at h
        · cases h
        · rename_i heq; cases h; obtain ⟨_, hh1⟩ := ihS _ _ _ _ heq; exact ⟨_, .consP hh1⟩
        · rename_i heq; obtain ⟨_, hh1⟩ := ihS _ _ _ _ heq; obtain ⟨_, hh2⟩ := ihSS _ _ _ _ h; exact ⟨_, .cons hh1 hh2⟩
    · intro σ s σ' p h
      cases s with
      | panic => simp only [execStmt] at h; cases h; exact ⟨_, .panic _⟩
      | protect b =>
        simp only [execStmt] at h
        split at h
        · cases h
        · rename_i heq; cases h; obtain ⟨_, hh1⟩ := ihSS _ _ _ _ heq; exact ⟨_, .protect hh1⟩
      | call fn recv body =>
        simp only [execStmt] at h
        split at h
        · cases h
        · rename_i heq; cases h; obtain ⟨_, hh1⟩ := ihT _ _ _ _ _ _ heq; exact ⟨_, .callTP hh1⟩
        · rename_i σ1 ps tr stop heq
          obtain ⟨_, h1⟩ := ihT _ _ _ _ _ _ heq
          split at h
          · cases h
          · rename_i σ2 p1 heq2
            split at h
            · cases h
            · rename_i σ3 p2 heq3
              obtain ⟨_, h3⟩ := ihP _ _ _ _ _ _ _ heq3
              cases h
              cases stop with
              | true =>
                simp only [if_true] at heq2
                cases heq2
                exact ⟨_, by simpa using Run.callStop (body := body) h1 h3⟩
              | false =>
                simp only [Bool.false_eq_true, if_false] at heq2
                obtain ⟨_, hh1⟩ := ihSS _ _ _ _ heq2; exact ⟨_, .callRun h1 hh1 h3⟩
    · intro σ cid fn recv σ' r h
      simp only [execTrap] at h
      split at h
      · cases h
      · rename_i σ1 L heq
        obtain ⟨_, h1⟩ := ihH _ _ _ _ _ _ _ _ heq
        split at h
        · rename_i hp; cases h; exact ⟨_, .trapP1 h1 hp⟩
        · rename_i hp
          have hp : L.panicked = false := by simpa using hp
          cases hs : L.stopped with
          | true =>
            simp only [hs, if_true, Loop.start] at h
            simp only [Bool.false_eq_true, if_false, Bool.true_or, Bool.and_true, if_true] at h
            cases h
            have := Run.trapStop1 h1 hp hs
            exact ⟨_, by simpa [Loop.closures, trOf, St.enter] using this⟩
          | false =>
            simp only [hs, Bool.false_eq_true, if_false, Bool.false_or] at h
            split at h
            · cases h
            · rename_i σ2 L2 heq2
              obtain ⟨_, h2⟩ := ihH _ _ _ _ _ _ _ _ heq2
              split at h
              · rename_i hp2; cases h; exact ⟨_, .trapP2 h1 hp hs h2 hp2⟩
              · rename_i hp2
                have hp2 : L2.panicked = false := by simpa using hp2
                cases hs2 : L2.stopped with
                | true =>
                  simp only [hs2, Bool.true_or, Bool.and_true, if_true] at h
                  cases h
                  exact ⟨_, .trapStop2 h1 hp hs h2 hp2 hs2⟩
                | false =>
                  simp only [hs2, Bool.false_or, Bool.false_eq_true, if_false] at h
                  split at h
                  · rename_i hm; cases h
                    exact ⟨_, .trapNoMock h1 hp hs h2 hp2 hs2 hm⟩
                  · rename_i m hm
                    split at h
                    · cases h
                    · rename_i heq3; cases h
                      obtain ⟨_, hh1⟩ := ihSS _ _ _ _ heq3; exact ⟨_, .trapMockP h1 hp hs h2 hp2 hs2 hm hh1⟩
                    · rename_i heq3; cases h
                      obtain ⟨_, hh1⟩ := ihSS _ _ _ _ heq3; exact ⟨_, .trapMock h1 hp hs h2 hp2 hs2 hm hh1⟩
    · intro σ cid gen recv hs L σ' L' h
      cases hs with
      | nil => simp only [runHooks] at h; cases h; exact ⟨_, .hooksNil⟩
      | cons hd tl =>
        simp only [runHooks] at h
        split at h
        · rename_i hw
          simp only [Bool.and_eq_true, Bool.not_eq_true'] at hw
          obtain ⟨_, hh1⟩ := ihH _ _ _ _ _ _ _ _ h; exact ⟨_, .hooksSkip hw.1 hw.2 hh1⟩
        · rename_i hw
          have hw : gen = true ∨ wantOk hd.want recv = true := by
            cases gen <;> simp_all
          split at h
          · rename_i hpre
            split at h
            · cases h
            · rename_i heq; cases h; obtain ⟨_, hh1⟩ := ihSS _ _ _ _ heq; exact ⟨_, .hooksP hw hpre hh1⟩
            · rename_i heq
              split at h
              · rename_i hst; cases h; obtain ⟨_, hh1⟩ := ihSS _ _ _ _ heq; exact ⟨_, .hooksStop hw hpre hh1 hst⟩
              · rename_i hst
                have hst : (E.preBeh hd.id σ.tick).stop = false := by simpa using hst
                obtain ⟨_, hb⟩ := ihSS _ _ _ _ heq
                obtain ⟨e', this⟩ := ihH _ _ _ _ _ _ _ _ h
                refine ⟨_, .hooksPre (e' := e') hw hpre hb hst ?_⟩
                cases hpo : hd.hasPost <;> simp only [hpo, Bool.false_eq_true, if_true, if_false] at this ⊢ <;> exact this
          · rename_i hpre
            have hpre : hd.hasPre = false := by simpa using hpre
            obtain ⟨e', this⟩ := ihH _ _ _ _ _ _ _ _ h
            refine ⟨e', .hooksNoPre hw hpre ?_⟩
            cases hpo : hd.hasPost <;> simp only [hpo, Bool.false_eq_true, if_true, if_false] at this ⊢ <;> exact this
    · intro σ cid ps tr p σ' p' h
      simp only [execPost] at h
      split at h
      · cases h
      · rename_i heq; cases h; obtain ⟨_, hh1⟩ := ihPs _ _ _ _ _ heq; exact ⟨_, .postP hh1⟩
      · rename_i heq
        split at h
        · cases h; obtain ⟨_, hh1⟩ := ihPs _ _ _ _ _ heq; exact ⟨_, .postU hh1⟩
        · cases h; obtain ⟨_, hh1⟩ := ihPs _ _ _ _ _ heq; exact ⟨_, .postT hh1⟩
    · intro σ cid cs σ' p' h
      cases cs with
      | nil => simp only [runPosts] at h; cases h; exact ⟨_, .postsNil⟩
      | cons c cs =>
        simp only [runPosts] at h
        split at h
        · rename_i hn; cases h; exact ⟨_, .postsBad (by simp [hn])⟩
        · rename_i hd hn
          split at h
          · rename_i hh; cases h
            refine ⟨_, .postsBad ?_⟩
            intro h' e; rw [hn] at e; cases e; simpa using hh
          · rename_i hh
            have hh : hd.hasPost = true := by simpa using hh
            split at h
            · cases h
            · rename_i heq; cases h; obtain ⟨_, hh1⟩ := ihSS _ _ _ _ heq; exact ⟨_, .postsP hn hh hh1⟩
            · rename_i heq; obtain ⟨_, hh1⟩ := ihSS _ _ _ _ heq; obtain ⟨_, hh2⟩ := ihPs _ _ _ _ _ h; exact ⟨_, .postsOk hn hh hh1 hh2⟩

/-- The events of a run are what it appends to the log. -/
theorem Run.log_eq {E j σ ev o σ'} (h : Run E j σ ev o σ') : σ'.log = σ.log ++ ev := by
  induction h <;> simp_all [St.emit, St.inc, St.dec, St.enter, entryEv]
  all_goals (split <;> simp_all)

end Verif.Runtime.Exec
