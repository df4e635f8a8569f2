import Verif.Support.ServePort
/-
C81: the servers of xgo find a free port and say which.
-/
namespace Verif.Support.ServePort

/-! ### Specification -/

/-- What other programs cannot do: there is no port beyond 65535, nothing answers there and nothing can listen there. -/
def Possible (s : St) : Label → Prop
  | .probe busy => s.port > 65535 → busy = false
  | .ret o => s.port > 65535 → o = .other
  | _ => True

/-- A schedule in which the failure of a port that is in use comes before the half second is over and is seen in time: no watcher
    of a port in use fires. -/
def Prompt (s : St) : Label → Prop
  | .fire i => ∀ w, s.ws[i]? = some w → w.closed = false
  | .ret o => o = .inUse → ∀ w, s.ws.head? = some w → w.st = .waiting
  | _ => True

/-- A run in which every step satisfies a condition. -/
def Along (auto : Bool) (P : St → Label → Prop) : St → List Label → Prop
  | _, [] => True
  | s, l :: ls => P s l ∧ ∀ t, step auto s l = some t → Along auto P t ls

/-- The steps of the loop itself, without those of the watchers. -/
def ofLoop : Label → Bool
  | .probe _ | .ret _ => true
  | _ => false

def taken (o : Outcome) : Prop := o = .busy ∨ o = .inUse

/-- The attempts: the ports from the first one on, one after the other, and all of them taken. -/
def Climbs (req : Int) (log : List (Int × Outcome)) : Prop :=
  log.map Prod.fst = (List.range log.length).map (fun (k : Nat) => req + (k : Int)) ∧ ∀ x ∈ log, taken x.2

/-! ### The port -/

theorem run_inv {auto : Bool} {P : St → Label → Prop} (I : St → Prop)
    (h : ∀ s l t, I s → P s l → step auto s l = some t → I t) :
    ∀ (ls : List Label) (s t : St), I s → Along auto P s ls → run auto s ls = some t → I t := by
  intro ls
  induction ls with
  | nil => intro s t hi _ hr; rw [run] at hr; exact Option.some.inj hr ▸ hi
  | cons l ls ih =>
    intro s t hi ha hr
    rw [run] at hr
    cases hs : step auto s l with
    | none => rw [hs] at hr; cases hr
    | some u =>
      rw [hs] at hr
      exact ih u t (h s l u hi ha.1 hs) (ha.2 u hs) hr

theorem along_true {auto : Bool} : ∀ (ls : List Label) (s : St), Along auto (fun _ _ => True) s ls := by
  intro ls
  induction ls with
  | nil => intro s; trivial
  | cons l ls ih => intro s; exact ⟨trivial, fun t _ => ih t⟩

theorem climbs_snoc {req : Int} {log : List (Int × Outcome)} {o : Outcome} (h : Climbs req log) (ho : taken o) :
    Climbs req (log ++ [(req + (log.length : Int), o)]) := by
  refine ⟨?_, ?_⟩
  · rw [List.map_append, h.1, List.length_append, List.length_singleton, List.range_succ, List.map_append]
    rfl
  · intro x hx
    rcases List.mem_append.mp hx with hx | hx
    · exact h.2 x hx
    · simp only [List.mem_singleton] at hx
      rw [hx]; exact ho

/-- While the loop goes on: `Climbs`; when it is over: the last attempt. -/
structure PortInv (auto : Bool) (req : Int) (s : St) : Prop where
  on : (∀ b, s.pc ≠ .done b) → Climbs req s.log ∧ s.port = req + (s.log.length : Int) ∧ (auto = false → s.log = [])
  over : ∀ b, s.pc = .done b → ∃ log o, s.log = log ++ [(s.port, o)] ∧ Climbs req log ∧ s.port = req + (log.length : Int) ∧
    (auto = false → log = []) ∧ (b = false → o = .ok) ∧ (b = true → o = .other ∨ (auto = false ∧ taken o))

theorem portInv_step {auto : Bool} {req : Int} (s : St) (l : Label) (t : St) (h : PortInv auto req s)
    (hs : step auto s l = some t) : PortInv auto req t := by
  cases l with
  | probe busy =>
    unfold step at hs
    simp only at hs
    split at hs
    · rename_i hp
      have hon := h.on (fun b => by rw [hp]; intro hh; cases hh)
      split at hs
      · split at hs
        · rename_i ha
          rw [← Option.some.inj hs]
          refine ⟨fun _ => ⟨?_, ?_, fun hf => by rw [hf] at ha; cases ha⟩, fun b hb => ?_⟩
          · show Climbs req (s.log ++ [(s.port, .busy)])
            rw [hon.2.1]; exact climbs_snoc hon.1 (.inl rfl)
          · show s.port + 1 = req + ((s.log ++ [(s.port, Outcome.busy)]).length : Int)
            rw [hon.2.1, List.length_append, List.length_singleton]
            omega
          · rw [hp] at hb; cases hb
        · rename_i ha
          rw [← Option.some.inj hs]
          have ha' : auto = false := by simpa using ha
          refine ⟨fun hh => absurd rfl (hh true), fun b hb => ?_⟩
          injection hb with hb
          exact ⟨s.log, .busy, rfl, hon.1, hon.2.1, hon.2.2, fun hf => (by rw [hf] at hb; cases hb),
            fun _ => .inr ⟨ha', .inl rfl⟩⟩
      · rw [← Option.some.inj hs]
        exact ⟨fun _ => hon, fun b hb => (by cases hb)⟩
    · cases hs
  | ret o =>
    unfold step at hs
    simp only at hs
    split at hs
    · rename_i hp
      have hon := h.on (fun b => by rw [hp]; intro hh; cases hh)
      cases o with
      | busy => cases hs
      | ok =>
        rw [← Option.some.inj hs]
        refine ⟨fun hh => absurd rfl (hh false), fun b hb => ?_⟩
        injection hb with hb
        exact ⟨s.log, .ok, rfl, hon.1, hon.2.1, hon.2.2, fun _ => rfl, fun hf => (by rw [hf] at hb; cases hb)⟩
      | other =>
        rw [← Option.some.inj hs]
        refine ⟨fun hh => absurd rfl (hh true), fun b hb => ?_⟩
        injection hb with hb
        exact ⟨s.log, .other, rfl, hon.1, hon.2.1, hon.2.2, fun hf => (by rw [hf] at hb; cases hb), fun _ => .inl rfl⟩
      | inUse =>
        simp only at hs
        split at hs
        · rename_i ha
          rw [← Option.some.inj hs]
          refine ⟨fun _ => ⟨?_, ?_, fun hf => by rw [hf] at ha; cases ha⟩, fun b hb => (by cases hb)⟩
          · show Climbs req (s.log ++ [(s.port, .inUse)])
            rw [hon.2.1]; exact climbs_snoc hon.1 (.inr rfl)
          · show s.port + 1 = req + ((s.log ++ [(s.port, Outcome.inUse)]).length : Int)
            rw [hon.2.1, List.length_append, List.length_singleton]
            omega
        · rename_i ha
          rw [← Option.some.inj hs]
          have ha' : auto = false := by simpa using ha
          refine ⟨fun hh => absurd rfl (hh true), fun b hb => ?_⟩
          injection hb with hb
          exact ⟨s.log, .inUse, rfl, hon.1, hon.2.1, hon.2.2, fun hf => (by rw [hf] at hb; cases hb),
            fun _ => .inr ⟨ha', .inr rfl⟩⟩
    · cases hs
  | fire i =>
    unfold step at hs
    simp only at hs
    split at hs
    · rw [← Option.some.inj hs]; exact ⟨h.on, h.over⟩
    · cases hs
  | cancel i =>
    unfold step at hs
    simp only at hs
    split at hs
    · rw [← Option.some.inj hs]; exact ⟨h.on, h.over⟩
    · cases hs
  | act i =>
    unfold step at hs
    simp only at hs
    split at hs
    · rw [← Option.some.inj hs]; exact ⟨h.on, h.over⟩
    · cases hs

theorem portInv_run {auto : Bool} {req : Int} {ls : List Label} {s : St} (h : run auto (start req) ls = some s) :
    PortInv auto req s :=
  run_inv (P := fun _ _ => True) (PortInv auto req) (fun s l t hi _ hs => portInv_step s l t hi hs) ls (start req) s
    ⟨fun _ => ⟨⟨rfl, fun x hx => (by cases hx)⟩, by show req = req + ((0 : Nat) : Int); omega, fun _ => rfl⟩,
      fun b hb => (by cases hb)⟩ (along_true ls _) h

/-- **C81.** Whatever other programs do with the ports meanwhile, and whatever the schedule: the port served is the first one, from
    the one asked for, that was not found taken when it was tried; each port before it was tried exactly once, in order. Without
    the permission to look further it is the port asked for. -/
theorem C81_port {auto : Bool} {req : Int} {ls : List Label} {s : St} (h : run auto (start req) ls = some s)
    (hs : s.pc = .serve) :
    Climbs req s.log ∧ s.port = req + (s.log.length : Int) ∧ (auto = false → s.port = req) := by
  have hi := portInv_run h
  obtain ⟨h1, h2, h3⟩ := hi.on (fun b => by rw [hs]; intro hh; cases hh)
  refine ⟨h1, h2, fun ha => ?_⟩
  rw [h2, h3 ha]
  show req + ((0 : Nat) : Int) = req
  omega

/-- **C81.** It gives up only because of an error other than a taken port, or where it may not look further. -/
theorem C81_gives_up {auto : Bool} {req : Int} {ls : List Label} {s : St} (h : run auto (start req) ls = some s)
    (hs : s.pc = .done true) :
    ∃ log o, s.log = log ++ [(s.port, o)] ∧ Climbs req log ∧ s.port = req + (log.length : Int) ∧
      (o = .other ∨ (auto = false ∧ s.port = req ∧ taken o)) := by
  obtain ⟨log, o, h1, h2, h3, h4, _, h6⟩ := (portInv_run h).over true hs
  refine ⟨log, o, h1, h2, h3, ?_⟩
  rcases h6 rfl with h6 | ⟨ha, ht⟩
  · exact .inl h6
  · refine .inr ⟨ha, ?_, ht⟩
    rw [h3, h4 ha]
    show req + ((0 : Nat) : Int) = req
    omega

/-! ### It ends -/

structure CountInv (req : Int) (c : Nat) (s : St) : Prop where
  low : req ≤ s.port
  high : s.port ≤ req ∨ s.port ≤ 65536
  probe : s.pc = .probe → (c : Int) ≤ 2 * (s.port - req)
  serve : s.pc = .serve → (c : Int) ≤ 2 * (s.port - req) + 1
  done : (c : Int) ≤ 2 * (s.port - req) + 2

theorem countInv_step {auto : Bool} {req : Int} {c : Nat} (s : St) (l : Label) (t : St) (h : CountInv req c s)
    (hp : Possible s l) (hs : step auto s l = some t) : CountInv req (c + if ofLoop l then 1 else 0) t := by
  obtain ⟨h1, h2, h3, h4, h5⟩ := h
  cases l with
  | probe busy =>
    have hc : (if ofLoop (.probe busy) = true then 1 else 0 : Nat) = 1 := rfl
    rw [hc]
    unfold step at hs
    simp only at hs
    split at hs
    · rename_i hpc
      have h3 := h3 hpc
      split at hs
      · rename_i hb
        have hle : s.port ≤ 65535 := by
          by_cases hlt : s.port > 65535
          · have := hp hlt; rw [this] at hb; cases hb
          · omega
        split at hs
        · rw [← Option.some.inj hs]
          refine ⟨by show req ≤ s.port + 1; omega, .inr (by show s.port + 1 ≤ 65536; omega), fun _ => ?_, fun hh => ?_, ?_⟩
          · show ((c + 1 : Nat) : Int) ≤ 2 * (s.port + 1 - req); omega
          · rw [show ({ s with port := s.port + 1, log := s.log ++ [(s.port, Outcome.busy)] } : St).pc = s.pc from rfl, hpc] at hh; cases hh
          · show ((c + 1 : Nat) : Int) ≤ 2 * (s.port + 1 - req) + 2; omega
        · rw [← Option.some.inj hs]
          refine ⟨h1, h2, fun hh => (by cases hh), fun hh => (by cases hh), ?_⟩
          show ((c + 1 : Nat) : Int) ≤ 2 * (s.port - req) + 2; omega
      · rw [← Option.some.inj hs]
        refine ⟨h1, h2, fun hh => (by cases hh), fun _ => ?_, ?_⟩
        · show ((c + 1 : Nat) : Int) ≤ 2 * (s.port - req) + 1; omega
        · show ((c + 1 : Nat) : Int) ≤ 2 * (s.port - req) + 2; omega
    · cases hs
  | ret o =>
    have hc : (if ofLoop (.ret o) = true then 1 else 0 : Nat) = 1 := rfl
    rw [hc]
    unfold step at hs
    simp only at hs
    split at hs
    · rename_i hpc
      have h4 := h4 hpc
      cases o with
      | busy => cases hs
      | ok =>
        rw [← Option.some.inj hs]
        refine ⟨h1, h2, fun hh => (by cases hh), fun hh => (by cases hh), ?_⟩
        show ((c + 1 : Nat) : Int) ≤ 2 * (s.port - req) + 2; omega
      | other =>
        rw [← Option.some.inj hs]
        refine ⟨h1, h2, fun hh => (by cases hh), fun hh => (by cases hh), ?_⟩
        show ((c + 1 : Nat) : Int) ≤ 2 * (s.port - req) + 2; omega
      | inUse =>
        have hle : s.port ≤ 65535 := by
          by_cases hlt : s.port > 65535
          · have := hp hlt; cases this
          · omega
        simp only at hs
        split at hs
        · rw [← Option.some.inj hs]
          refine ⟨by show req ≤ s.port + 1; omega, .inr (by show s.port + 1 ≤ 65536; omega), fun _ => ?_, fun hh => (by cases hh), ?_⟩
          · show ((c + 1 : Nat) : Int) ≤ 2 * (s.port + 1 - req); omega
          · show ((c + 1 : Nat) : Int) ≤ 2 * (s.port + 1 - req) + 2; omega
        · rw [← Option.some.inj hs]
          refine ⟨h1, h2, fun hh => (by cases hh), fun hh => (by cases hh), ?_⟩
          show ((c + 1 : Nat) : Int) ≤ 2 * (s.port - req) + 2; omega
    · cases hs
  | fire i =>
    unfold step at hs
    simp only at hs
    split at hs
    · rw [← Option.some.inj hs]; exact ⟨h1, h2, h3, h4, h5⟩
    · cases hs
  | cancel i =>
    unfold step at hs
    simp only at hs
    split at hs
    · rw [← Option.some.inj hs]; exact ⟨h1, h2, h3, h4, h5⟩
    · cases hs
  | act i =>
    unfold step at hs
    simp only at hs
    split at hs
    · rw [← Option.some.inj hs]; exact ⟨h1, h2, h3, h4, h5⟩
    · cases hs

theorem count_run {auto : Bool} {req : Int} : ∀ (ls : List Label) (c : Nat) (s t : St), CountInv req c s →
    Along auto Possible s ls → run auto s ls = some t → CountInv req (c + (ls.filter ofLoop).length) t := by
  intro ls
  induction ls with
  | nil => intro c s t hi _ hr; rw [run] at hr; exact Option.some.inj hr ▸ hi
  | cons l ls ih =>
    intro c s t hi ha hr
    rw [run] at hr
    cases hs : step auto s l with
    | none => rw [hs] at hr; cases hr
    | some u =>
      rw [hs] at hr
      have := ih _ u t (countInv_step s l u hi ha.1 hs) (ha.2 u hs) hr
      cases ho : ofLoop l with
      | true =>
        rw [ho] at this
        rw [List.filter_cons_of_pos ho, List.length_cons]
        simp only [if_true] at this
        rw [show c + ((ls.filter ofLoop).length + 1) = c + 1 + (ls.filter ofLoop).length from by omega]
        exact this
      | false =>
        rw [ho] at this
        rw [List.filter_cons_of_neg (by rw [ho]; decide)]
        simpa using this

/-- **C81.** The search ends, whatever other programs do: the loop makes at most two steps for each port up to 65536, of which
    there is no more to be found, and two more. -/
theorem C81_ends {auto : Bool} {req : Int} {ls : List Label} {s : St} (h : run auto (start req) ls = some s)
    (hp : Along auto Possible (start req) ls) :
    (ls.filter ofLoop).length ≤ 2 * (65536 - req).toNat + 2 ∧ (s.port ≤ req ∨ s.port ≤ 65536) := by
  have hi := count_run (auto := auto) (req := req) ls 0 (start req) s
    ⟨by show req ≤ req; omega, .inl (by show req ≤ req; omega), fun _ => by show ((0 : Nat) : Int) ≤ 2 * (req - req); omega,
      fun hh => (by cases hh), by show ((0 : Nat) : Int) ≤ 2 * (req - req) + 2; omega⟩ hp h
  refine ⟨?_, hi.high⟩
  have h5 := hi.done
  have h1 := hi.low
  rcases hi.high with h2 | h2 <;> omega

/-! ### What is announced -/

/-- A watcher that will say nothing. -/
def Quiet (w : Watcher) : Prop := w.st ≠ .acting ∧ (w.st = .waiting → w.closed = true)

structure SaidInv (s : St) : Prop where
  probe : s.pc = .probe → (∀ w ∈ s.ws, Quiet w) ∧ s.said = []
  other : s.pc ≠ .probe → ∀ w ws, s.ws = w :: ws → (∀ x ∈ ws, Quiet x) ∧
    (s.said = [] ∨ (s.said = [s.port] ∧ w.st = .gone))
  none : s.ws = [] → s.said = []
  opened : s.pc = .serve → ∃ w ws, s.ws = w :: ws ∧ w.closed = false ∧ (w.st = .gone → s.said = [s.port])

theorem quiet_gone (w : Watcher) : Quiet (setSt .gone w) := ⟨fun h => (by cases h), fun h => (by cases h)⟩

theorem quiet_modify {ws : List Watcher} (h : ∀ x ∈ ws, Quiet x) (i : Nat) : ∀ x ∈ ws.modify i (setSt .gone), Quiet x := by
  induction ws generalizing i with
  | nil => intro x hx; simp at hx
  | cons w ws ih =>
    cases i with
    | zero =>
      intro x hx
      simp only [List.modify_zero_cons, List.mem_cons] at hx
      rcases hx with hx | hx
      · rw [hx]; exact quiet_gone w
      · exact h x (by simp [hx])
    | succ i =>
      intro x hx
      simp only [List.modify_succ_cons, List.mem_cons] at hx
      rcases hx with hx | hx
      · rw [hx]; exact h w (by simp)
      · exact ih (fun y hy => h y (by simp [hy])) i x hx

theorem mem_of_get {ws : List Watcher} {i : Nat} {w : Watcher} (h : ws[i]? = some w) : w ∈ ws := List.mem_of_getElem? h

theorem saidInv_step {auto : Bool} (s : St) (l : Label) (t : St) (h : SaidInv s) (hp : Prompt s l)
    (hs : step auto s l = some t) : SaidInv t := by
  cases l with
  | probe busy =>
    unfold step at hs
    simp only at hs
    split at hs
    · rename_i hpc
      obtain ⟨hq, hsd⟩ := h.probe hpc
      split at hs
      · split at hs
        · rw [← Option.some.inj hs]
          exact ⟨fun _ => ⟨hq, hsd⟩, fun hh => absurd hpc hh, h.none, fun hh => by
            rw [show ({ s with port := s.port + 1, log := s.log ++ [(s.port, Outcome.busy)] } : St).pc = s.pc from rfl, hpc] at hh; cases hh⟩
        · rw [← Option.some.inj hs]
          refine ⟨fun hh => (by cases hh), fun _ w ws hw => ⟨fun x hx => ?_, .inl hsd⟩, h.none, fun hh => (by cases hh)⟩
          exact hq x (by rw [show s.ws = w :: ws from hw]; simp [hx])
      · rw [← Option.some.inj hs]
        refine ⟨fun hh => (by cases hh), fun _ w ws hw => ?_, fun hh => (by cases hh), fun _ => ⟨_, _, rfl, rfl, fun hh => (by cases hh)⟩⟩
        injection hw with h1 h2
        exact ⟨fun x hx => hq x (by rw [h2]; exact hx), .inl hsd⟩
    · cases hs
  | ret o =>
    unfold step at hs
    simp only at hs
    split at hs
    · rename_i hpc
      obtain ⟨w, ws, hw, hc, _⟩ := h.opened hpc
      have hne : s.pc ≠ .probe := by rw [hpc]; intro hh; cases hh
      obtain ⟨hq, hsd⟩ := h.other hne w ws hw
      have hover : ∀ (pc : Pc) (log : List (Int × Outcome)), pc ≠ .probe → pc ≠ .serve →
          SaidInv { s with pc := pc, ws := close s.ws, log := log } := by
        intro pc log h1 h2
        refine ⟨fun hh => absurd hh h1, fun _ x xs hx => ?_, fun hh => ?_, fun hh => absurd hh h2⟩
        · have hx : close s.ws = x :: xs := hx
          rw [hw, close] at hx
          injection hx with hx1 hx2
          rw [← hx2]
          refine ⟨hq, ?_⟩
          rcases hsd with hsd | ⟨hsd, hg⟩
          · exact .inl hsd
          · exact .inr ⟨hsd, by rw [← hx1]; exact hg⟩
        · have hh : close s.ws = [] := hh
          rw [hw, close] at hh
          cases hh
      cases o with
      | busy => cases hs
      | ok =>
        rw [← Option.some.inj hs]
        exact ⟨fun hh => (by cases hh), fun _ => h.other hne, h.none, fun hh => (by cases hh)⟩
      | other =>
        rw [← Option.some.inj hs]
        exact hover (.done true) _ (fun hh => by cases hh) (fun hh => by cases hh)
      | inUse =>
        simp only at hs
        split at hs
        · rw [← Option.some.inj hs]
          have hwait : w.st = .waiting := hp rfl w (by rw [hw]; rfl)
          have hsd' : s.said = [] := by
            rcases hsd with hsd | ⟨_, hg⟩
            · exact hsd
            · rw [hwait] at hg; cases hg
          refine ⟨fun _ => ⟨?_, hsd'⟩, fun hh => absurd rfl hh, fun hh => hsd', fun hh => (by cases hh)⟩
          intro x hx
          have hx : x ∈ close s.ws := hx
          rw [hw, close] at hx
          rcases List.mem_cons.mp hx with hx | hx
          · rw [hx]
            exact ⟨fun hh => (by rw [show w.st = .acting from hh] at hwait; cases hwait), fun _ => rfl⟩
          · exact hq x hx
        · rw [← Option.some.inj hs]
          exact hover (.done true) _ (fun hh => by cases hh) (fun hh => by cases hh)
    · cases hs
  | fire i =>
    unfold step at hs
    simp only at hs
    split at hs
    · rename_i c hg
      rw [← Option.some.inj hs]
      have hopen : c = false := hp _ hg
      have hnq : ¬ Quiet ⟨.waiting, c⟩ := fun hh => by have := hh.2 rfl; rw [hopen] at this; cases this
      have hne : s.pc ≠ .probe := fun hh => hnq ((h.probe hh).1 _ (mem_of_get hg))
      cases hws : s.ws with
      | nil => rw [hws] at hg; cases hg
      | cons w ws =>
        obtain ⟨hq, hsd⟩ := h.other hne w ws hws
        cases i with
        | succ i =>
          rw [hws, List.getElem?_cons_succ] at hg
          exact absurd (hq _ (mem_of_get hg)) hnq
        | zero =>
          rw [hws, List.getElem?_cons_zero] at hg
          have hw := Option.some.inj hg
          rw [List.modify_zero_cons]
          refine ⟨fun hh => absurd hh hne, fun _ x xs hx => ?_, fun hh => (by cases hh), fun hh => ?_⟩
          · injection hx with hx1 hx2
            refine ⟨by rw [← hx2]; exact hq, ?_⟩
            rcases hsd with hsd | ⟨_, hgone⟩
            · exact .inl hsd
            · rw [hw] at hgone; cases hgone
          · exact ⟨_, _, rfl, by show w.closed = false; rw [hw]; exact hopen, fun hh => (by cases hh)⟩
    · cases hs
  | cancel i =>
    unfold step at hs
    simp only at hs
    split at hs
    · rename_i hg
      rw [← Option.some.inj hs]
      cases hws : s.ws with
      | nil => rw [hws] at hg; cases hg
      | cons w ws =>
        refine ⟨fun hh => ?_, fun hne x xs hx => ?_, fun hh => ?_, fun hh => ?_⟩
        · obtain ⟨hq, hsd⟩ := h.probe hh
          rw [hws] at hq
          exact ⟨quiet_modify hq i, hsd⟩
        · obtain ⟨hq, hsd⟩ := h.other hne w ws hws
          have hx : (w :: ws).modify i (setSt .gone) = x :: xs := hx
          cases i with
          | zero =>
            rw [List.modify_zero_cons] at hx
            injection hx with hx1 hx2
            rw [← hx2]
            refine ⟨hq, ?_⟩
            rcases hsd with hsd | ⟨hsd, _⟩
            · exact .inl hsd
            · exact .inr ⟨hsd, by rw [← hx1]; rfl⟩
          | succ i =>
            rw [List.modify_succ_cons] at hx
            injection hx with hx1 hx2
            rw [← hx2, ← hx1]
            exact ⟨quiet_modify hq i, hsd⟩
        · have hh : (w :: ws).modify i (setSt .gone) = [] := hh
          cases i with
          | zero => rw [List.modify_zero_cons] at hh; cases hh
          | succ i => rw [List.modify_succ_cons] at hh; cases hh
        · obtain ⟨x, xs, hx, hc, hsp⟩ := h.opened hh
          rw [hws] at hx
          injection hx with hx1 hx2
          cases i with
          | zero =>
            rw [hws, List.getElem?_cons_zero] at hg
            rw [hx1.symm.trans (Option.some.inj hg)] at hc
            cases hc
          | succ i => exact ⟨w, ws.modify i (setSt .gone), by rw [List.modify_succ_cons], by rw [hx1]; exact hc, by rw [hx1]; exact hsp⟩
    · cases hs
  | act i =>
    unfold step at hs
    simp only at hs
    split at hs
    · rename_i c hg
      rw [← Option.some.inj hs]
      have hnq : ¬ Quiet ⟨.acting, c⟩ := fun hh => hh.1 rfl
      have hne : s.pc ≠ .probe := fun hh => hnq ((h.probe hh).1 _ (mem_of_get hg))
      cases hws : s.ws with
      | nil => rw [hws] at hg; cases hg
      | cons w ws =>
        obtain ⟨hq, hsd⟩ := h.other hne w ws hws
        cases i with
        | succ i =>
          rw [hws, List.getElem?_cons_succ] at hg
          exact absurd (hq _ (mem_of_get hg)) hnq
        | zero =>
          rw [hws, List.getElem?_cons_zero] at hg
          have hw := Option.some.inj hg
          have hsd' : s.said = [] := by
            rcases hsd with hsd | ⟨_, hgone⟩
            · exact hsd
            · rw [hw] at hgone; cases hgone
          rw [List.modify_zero_cons]
          refine ⟨fun hh => absurd hh hne, fun _ x xs hx => ?_, fun hh => (by cases hh), fun hh => ?_⟩
          · injection hx with hx1 hx2
            refine ⟨by rw [← hx2]; exact hq, .inr ⟨by show s.said ++ [s.port] = [s.port]; rw [hsd']; rfl, by rw [← hx1]; rfl⟩⟩
          · obtain ⟨y, ys, hy, hyc, _⟩ := h.opened hh
            rw [hws] at hy
            injection hy with hy1 hy2
            exact ⟨_, _, rfl, by show w.closed = false; rw [hy1]; exact hyc, fun _ => (by show s.said ++ [s.port] = [s.port]; rw [hsd']; rfl)⟩
    · cases hs

theorem saidInv_run {auto : Bool} {req : Int} {ls : List Label} {s : St} (h : run auto (start req) ls = some s)
    (hp : Along auto Prompt (start req) ls) : SaidInv s :=
  run_inv SaidInv (fun s l t hi hl hs => saidInv_step s l t hi hl hs) ls (start req) s
    ⟨fun _ => ⟨fun w hw => (by cases hw), rfl⟩, fun hh => absurd rfl hh, fun _ => rfl, fun hh => (by cases hh)⟩ hp h

/-- **C81.** Where the failure of a port that is in use comes in time: at most one address is ever announced, and only the one
    that is being served; the links of the page are to that port, or, before the announcement, to port 0. -/
theorem C81_announced_partial {auto : Bool} {req : Int} {ls : List Label} {s : St} (h : run auto (start req) ls = some s)
    (hp : Along auto Prompt (start req) ls) :
    (s.said = [] ∨ s.said = [s.port]) ∧ (s.pc = .probe → s.said = []) ∧ (pagePort s = s.port ∨ pagePort s = 0) := by
  have hi := saidInv_run h hp
  have h1 : s.said = [] ∨ s.said = [s.port] := by
    cases hw : s.ws with
    | nil => exact .inl (hi.none hw)
    | cons w ws =>
      by_cases hpc : s.pc = .probe
      · exact .inl (hi.probe hpc).2
      · rcases (hi.other hpc w ws hw).2 with hh | hh
        · exact .inl hh
        · exact .inr hh.1
  refine ⟨h1, fun hpc => (hi.probe hpc).2, ?_⟩
  rcases h1 with h1 | h1
  · right; unfold pagePort; rw [h1]; rfl
  · left; unfold pagePort; rw [h1]; rfl

/-- **C81.** And it is announced: where a port is served, at most two steps of the watcher lead to its announcement, if it is not
    announced yet. -/
theorem C81_announces {auto : Bool} {req : Int} {ls : List Label} {s : St} (h : run auto (start req) ls = some s)
    (hs : s.pc = .serve) (hp : Along auto Prompt (start req) ls) :
    ∃ t, (∃ more, more.length ≤ 2 ∧ run auto s more = some t) ∧ t.pc = .serve ∧ t.port = s.port ∧ t.said = [s.port] := by
  have hi := saidInv_run h hp
  obtain ⟨w, ws, hw, hc, hsp⟩ := hi.opened hs
  have hsd := (hi.other (by rw [hs]; intro hh; cases hh) w ws hw).2
  obtain ⟨st, cl⟩ := w
  cases st with
  | gone => exact ⟨s, ⟨[], by decide, rfl⟩, hs, rfl, hsp rfl⟩
  | acting =>
    have h0 : s.said = [] := by
      rcases hsd with hsd | ⟨_, hg⟩
      · exact hsd
      · cases hg
    refine ⟨{ s with ws := s.ws.modify 0 (setSt .gone), said := s.said ++ [s.port] }, ⟨[.act 0], by decide, ?_⟩, hs, rfl, ?_⟩
    · have : step auto s (.act 0) = some { s with ws := s.ws.modify 0 (setSt .gone), said := s.said ++ [s.port] } := by
        simp [step, hw]
      rw [run, this]; rfl
    · show s.said ++ [s.port] = [s.port]
      rw [h0]; rfl
  | waiting =>
    have h0 : s.said = [] := by
      rcases hsd with hsd | ⟨_, hg⟩
      · exact hsd
      · cases hg
    have h1 : step auto s (.fire 0) = some { s with ws := ⟨.acting, cl⟩ :: ws } := by
      simp [step, hw, setSt]
    have h2 : step auto { s with ws := ⟨.acting, cl⟩ :: ws } (.act 0) =
        some { s with ws := ⟨.gone, cl⟩ :: ws, said := s.said ++ [s.port] } := by
      simp [step, setSt]
    refine ⟨{ s with ws := ⟨.gone, cl⟩ :: ws, said := s.said ++ [s.port] }, ⟨[.fire 0, .act 0], by decide, ?_⟩, hs, rfl, ?_⟩
    · rw [run, h1]
      show run auto { s with ws := ⟨.acting, cl⟩ :: ws } [.act 0] = _
      rw [run, h2]; rfl
    · show s.said ++ [s.port] = [s.port]
      rw [h0]; rfl

/-! ### Where it binds -/

/-- **C81.** The server listens on the address asked for, where it is one of this machine, and otherwise on localhost; never on all
    addresses unasked. -/
theorem C81_host (ips : Option (List Str)) (v6 : Str → Bool) (bind : Str) (parsed : Option Int)
    (hl : v6 "localhost".toList = false) :
    (hostAndPort ips v6 bind parsed).1 ∈ ["localhost".toList, bind, "[".toList ++ bind ++ "]".toList] ∧
    (∀ l, ips = some l → bind ∈ l ++ ["0.0.0.0".toList, "::".toList] → v6 bind = false →
      (hostAndPort ips v6 bind parsed).1 = bind) ∧
    (∀ l, ips = some l → bind ∉ l ++ ["0.0.0.0".toList, "::".toList] → (hostAndPort ips v6 bind parsed).1 = "localhost".toList) ∧
    (∀ n, parsed = some n → (hostAndPort ips v6 bind parsed).2 = n) := by
  refine ⟨?_, ?_, ?_, ?_⟩
  · unfold hostAndPort
    cases ips with
    | none => simp
    | some l =>
      simp only
      by_cases hb : (l ++ ["0.0.0.0".toList, "::".toList]).contains bind = true
      · rw [if_pos hb]
        split <;> simp
      · rw [if_neg hb, hl]
        simp
  · intro l hips hm hv
    unfold hostAndPort
    rw [hips]
    simp only
    rw [if_pos (List.contains_iff_mem.mpr hm), hv]
    rfl
  · intro l hips hm
    unfold hostAndPort
    rw [hips]
    simp only
    rw [if_neg (fun hc => hm (List.contains_iff_mem.mp hc)), hl]
    rfl
  · intro n hn
    unfold hostAndPort
    rw [hn]
    cases ips <;> rfl

/-! ### What is missing -/

/-- A listener that fails after the half second: the address announced is that of another program, and xgo serves the next port. -/
theorem C81_announced_stale (req : Int) :
    ∃ ls s, run true (start req) ls = some s ∧ s.pc = .serve ∧ s.said = [req] ∧ s.port = req + 1 := by
  refine ⟨[.probe false, .fire 0, .act 0, .ret .inUse, .probe false], _, rfl, rfl, rfl, rfl⟩

/-- The closure sees the variable of the loop: an announcement that is late names a port that has not been tried, and that is
    found taken then. -/
theorem C81_announced_untried (req : Int) :
    ∃ ls s, run true (start req) ls = some s ∧ s.pc = .serve ∧ s.said = [req + 1] ∧ s.port = req + 1 + 1 ∧
      s.log = [(req, .inUse), (req + 1, .busy)] := by
  refine ⟨[.probe false, .fire 0, .ret .inUse, .act 0, .probe true, .probe false], _, rfl, rfl, rfl, rfl, rfl⟩

/-- In its first half second the page has links to port 0. -/
theorem C81_page_early (req : Int) (h : req ≠ 0) :
    ∃ ls s, run true (start req) ls = some s ∧ s.pc = .serve ∧ Along true Prompt (start req) ls ∧ pagePort s ≠ s.port := by
  refine ⟨[.probe false], _, rfl, rfl, ⟨trivial, fun _ _ => trivial⟩, ?_⟩
  show (0 : Int) ≠ req
  exact fun hh => h hh.symm

/-- The address of a host in brackets that is probed is never the one that is listened on: there the probe tells nothing. -/
theorem C81_v6_probe (ip port : Str) (h : ':' ∈ ip) :
    joinHostPort ("[".toList ++ ip ++ "]".toList) port ≠ listenAddr ("[".toList ++ ip ++ "]".toList) port := by
  have hc : (("[".toList ++ ip ++ "]".toList).contains ':') = true := by
    rw [List.contains_iff_mem]; simp [h]
  unfold joinHostPort listenAddr
  rw [hc, Bool.true_or, if_pos rfl]
  intro hh
  have := congrArg List.length hh
  simp at this
  omega

/-! ### A concrete run -/

def demo : List Label := [.probe true, .probe false, .ret .inUse, .cancel 0, .probe false, .fire 0, .act 0]

example : (run true (start 8000) demo).map (fun s => (s.pc, s.port, s.said, s.log)) =
    some (.serve, 8002, [8002], [(8000, .busy), (8001, .inUse)]) := by decide

example : Along true Prompt (start 8000) demo := by
  simp [demo, Along, Prompt, step, start, close]

example : Along true Possible (start 8000) demo := by
  simp [demo, Along, Possible, step, start, close]

end Verif.Support.ServePort
