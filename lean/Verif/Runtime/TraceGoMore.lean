/-
C76: times, race-safe mode, and where the claim fails.
-/
import Verif.Runtime.TraceGoTheorems

namespace Verif.Runtime.TraceGo
open Spec

/-! Times. -/

section
variable {H : Nat → Nat × Ev} {clock : Nat → Int} {b0 : Int} {hi : Nat}

mutual
def OkIn (H : Nat → Nat × Ev) (clock : Nat → Int) (m : Nat) : Act → Prop
  | .call _ b (some (e, _)) g => b ≤ e ∧ Ok H clock m g
  | .call _ b none g => b ≤ clock m ∧ Ok H clock m g
  | .go k t => t ≤ clock m ∧ ∃ i g, H i = (g, .spawn k t)
def Ok (H : Nat → Nat × Ev) (clock : Nat → Int) (m : Nat) : List Act → Prop
  | [] => True
  | a :: as => OkIn H clock m a ∧ Ok H clock m as
end

theorem ok_append {m} (f g : List Act) (h : Ok H clock m f) (h' : Ok H clock m g) : Ok H clock m (f ++ g) := by
  induction f with
  | nil => exact h'
  | cons a f ih => exact ⟨h.1, ih h.2⟩

theorem whole_ok (ck : Clocked H clock) {k m b l f} (h : Whole b l f) : ∀ pre post, eventsOf H k m = pre ++ (l ++ post) → Ok H clock m f := by
  induction h with
  | nil b => intro _ _ _; trivial
  | @call b c t t' p body rest f g h1 h2 ih1 ih2 =>
    intro pre post he
    refine ⟨⟨?_, ih1 (pre ++ [.enter c t]) (.exit t' p :: (rest ++ post)) (by rw [he]; simp)⟩,
      ih2 (pre ++ .enter c t :: (body ++ [.exit t' p])) post (by rw [he]; simp)⟩
    obtain ⟨i, hi, e1, e2⟩ := eventsOf_index (H := H) (k := k) (m := m) (e := .enter c t) (pre := pre) (post := body ++ .exit t' p :: (rest ++ post)) (by rw [he]; simp)
    obtain ⟨j, hj, e3, e4⟩ := eventsOf_index (H := H) (k := k) (m := m) (e := .exit t' p) (pre := pre ++ .enter c t :: body) (post := rest ++ post) (by rw [he]; simp)
    exact ck.exit i j k c t t' p body f e1 e3 (by rw [e4, e2]) h1
  | @go k' t rest g h ih =>
    intro pre post he
    have hm : Ev.spawn k' t ∈ eventsOf H k m := by rw [he]; simp
    obtain ⟨i, hi, e⟩ := mem_eventsOf.1 hm
    exact ⟨⟨Int.le_trans (ck.spawn i k k' t e) (ck.mono i m (by omega)), i, k, e⟩, ih (pre ++ [.spawn k' t]) post (by rw [he]; simp)⟩
  | @goOutside k' t rest g h ih => intro pre post he; exact ih (pre ++ [.spawn k' t]) post (by rw [he]; simp)
  | @done b t rest g h ih => intro pre post he; exact ih (pre ++ [.done t]) post (by rw [he]; simp)
  | @other b rest g h ih => intro pre post he; exact ih (pre ++ [.other]) post (by rw [he]; simp)

theorem ongoing_ok (ck : Clocked H clock) {k m b l f} (h : Ongoing b l f) : ∀ pre, eventsOf H k m = pre ++ l → Ok H clock m f := by
  induction h with
  | whole h => intro pre he; exact whole_ok ck h pre [] (by rw [he, List.append_nil])
  | @running b c t l f l' g h h' ih =>
    intro pre he
    refine ok_append _ _ (whole_ok ck h pre (.enter c t :: l') (by rw [he])) ⟨⟨?_, ih (pre ++ (l ++ [.enter c t])) (by rw [he]; simp)⟩, trivial⟩
    have hm : Ev.enter c t ∈ eventsOf H k m := by rw [he]; simp
    obtain ⟨i, hi, e⟩ := mem_eventsOf.1 hm
    exact Int.le_trans (ck.enter i k c t e) (ck.mono i m (by omega))

theorem endOf_mem {l : List Ev} {e : Int} (h : endOf l = some e) : Ev.done e ∈ l := by
  induction l with
  | nil => cases h
  | cons x l ih =>
    cases x with
    | done t => simp only [endOf] at h; cases h; exact List.mem_cons_self ..
    | _ => exact List.mem_cons_of_mem _ (ih h)

theorem Picture.ends {lo k e xs} (h : Picture H clock b0 hi lo k (some e) xs) : ∃ j, H j = (k, .done e) := by
  generalize he : some e = oe at h
  cases h with
  | mk p1 p2 p3 p4 =>
    obtain ⟨j, -, hj⟩ := mem_eventsOf.1 (endOf_mem he.symm)
    exact ⟨j, hj⟩

mutual
theorem Picture.forwards (ck : Clocked H clock) : ∀ {lo k e xs}, Picture H clock b0 hi lo k e xs → Forwards xs
  | _, _, _, _, .mk _ _ p3 p4 => Shown.forwards ck p4 (ongoing_ok ck p3 [] rfl)
theorem Shown.forwards (ck : Clocked H clock) : ∀ {lo f xs}, Shown H clock b0 hi lo f xs → Ok H clock lo f → Forwards xs
  | _, _, _, .nil _, _ => trivial
  | _, _, _, .ended h1 h2, o => ⟨⟨by have := o.1.1; omega, Shown.forwards ck h1 o.1.2⟩, Shown.forwards ck h2 o.2⟩
  | _, _, _, .running h1 n1 n2 h2, o =>
    ⟨⟨by have := Int.le_trans o.1.1 (ck.mono _ _ n1); omega, Shown.forwards ck h1 o.1.2⟩, Shown.forwards ck h2 o.2⟩
  | _, _, _, .goEnded h1 h2, o => by
    obtain ⟨⟨o1, i, g, oi⟩, o2⟩ := o
    obtain ⟨j, hj⟩ := Picture.ends h1
    exact ⟨⟨by have := ck.done _ _ _ _ _ _ oi hj; omega, Picture.forwards ck h1⟩, Shown.forwards ck h2 o2⟩
  | _, _, _, .goRunning h1 n1 n2 h2, o =>
    ⟨⟨by have := Int.le_trans o.1.1 (ck.mono _ _ n1); omega, Picture.forwards ck h1⟩, Shown.forwards ck h2 o.2⟩
end
end

/-- C76. No entry, of any goroutine, ends before it begins. -/
theorem C76_times_partial (H : Nat → Nat × Ev) (begin : Int) (clock : Nat → Int) (sched : Nat → Nat) (fuel start : Nat)
    (fresh : Fresh H) (bal : Balanced H) (ck : Clocked H clock) (xs : List X) (a : At)
    (h : exportTrace ⟨World.after false begin H, clock, sched⟩ fuel start = some (xs, a)) : Forwards xs := by
  obtain ⟨e, hp⟩ := C76_export_is_a_picture_partial H begin clock sched fuel start fresh bal xs a h
  exact Picture.forwards ck hp

/-! Race-safe mode. -/

theorem set_self {w : World} {g : Nat} {s : GStk} (h : w g = some s) : w.set g s = w := by
  funext x
  by_cases hx : x = g <;> simp [World.set, hx, h]

theorem after_raceSafe (H : Nat → Nat × Ev) (b0 : Int) (m : Nat) : World.after true b0 H m = World.after false b0 (withoutGo H) m := by
  induction m with
  | zero => rfl
  | succ m ih =>
    rw [World.after, World.after, ih]
    unfold withoutGo
    generalize World.after false b0 _ m = w
    generalize H m = x
    obtain ⟨g, e⟩ := x
    cases e with
    | spawn k t =>
      simp only [World.step]
      cases hw : w g with
      | none => rfl
      | some s => simp [GStk.step, set_self hw]
    | _ => rfl

def forgetGo : Ev → Ev
  | .spawn _ _ => .other
  | e => e

theorem withoutGo_eq (H : Nat → Nat × Ev) (i : Nat) : withoutGo H i = ((H i).1, forgetGo (H i).2) := by
  unfold withoutGo
  generalize H i = x
  obtain ⟨g, e⟩ := x
  cases e <;> rfl

theorem eventsOf_withoutGo (H : Nat → Nat × Ev) (k m : Nat) : eventsOf (withoutGo H) k m = (eventsOf H k m).map forgetGo := by
  induction m with
  | zero => rfl
  | succ m ih =>
    rw [eventsOf_succ, eventsOf_succ, ih, List.map_append, withoutGo_eq]
    by_cases h : (H m).1 = k <;> simp [h]

theorem depth_forgetGo (l : List Ev) : depth (l.map forgetGo) = depth l := by
  induction l with
  | nil => rfl
  | cons e l ih => cases e <;> simp [forgetGo, depth, ih]

theorem withoutGo_balanced {H : Nat → Nat × Ev} (bal : Balanced H) : Balanced (withoutGo H) := by
  intro m g t p h
  rw [eventsOf_withoutGo, depth_forgetGo]
  refine bal m g t p ?_
  rw [withoutGo_eq] at h
  generalize H m = x at h
  obtain ⟨g', e⟩ := x
  cases e <;> simp_all [forgetGo]

theorem withoutGo_fresh (H : Nat → Nat × Ev) : Fresh (withoutGo H) := by
  intro m g k t h
  rw [withoutGo_eq] at h
  generalize H m = x at h
  obtain ⟨g', e⟩ := x
  cases e <;> simp [forgetGo] at h

/-- C76. In race-safe mode the trace is a picture of goroutine 0 alone, as if it had started no goroutine. -/
theorem C76_race_safe_partial (H : Nat → Nat × Ev) (begin : Int) (clock : Nat → Int) (sched : Nat → Nat) (fuel start : Nat)
    (bal : Balanced H) (xs : List X) (a : At)
    (h : exportTrace ⟨World.after true begin H, clock, sched⟩ fuel start = some (xs, a)) :
    (∃ e, Picture (withoutGo H) clock begin a.time start 0 e xs) ∧ ∀ c ∈ callsOf xs, Calls H a.time 0 c := by
  rw [show World.after true begin H = World.after false begin (withoutGo H) from funext (after_raceSafe H begin)] at h
  refine ⟨C76_export_is_a_picture_partial _ begin clock sched fuel start (withoutGo_fresh H) (withoutGo_balanced bal) xs a h, ?_⟩
  intro c hc
  obtain ⟨g, hg, i, t, hi, he⟩ := C76_only_calls_of_the_trace_partial _ begin clock sched fuel start (withoutGo_fresh H) (withoutGo_balanced bal) xs a h c hc
  have h0 : g = 0 := by
    cases hg with
    | root => rfl
    | started _ hs =>
      obtain ⟨j, t', -, hj, -⟩ := hs
      rw [withoutGo_eq] at hj
      generalize H j = x at hj
      obtain ⟨g', e⟩ := x
      cases e <;> simp [forgetGo] at hj
  subst h0
  refine ⟨i, t, hi, ?_⟩
  rw [withoutGo_eq] at he
  generalize H i = x at he ⊢
  obtain ⟨g', e⟩ := x
  cases e <;> simp_all [forgetGo]

/-! Histories given by a list, for examples. -/

theorem getD_default {α} (l : List α) (d : α) {i : Nat} (h : l.length ≤ i) : l.getD i d = d := by
  simp [List.getD, List.getElem?_eq_none h]

def ofList (l : List (Nat × Ev)) : Nat → Nat × Ev := fun i => l.getD i (0, .other)

def freshB (l : List (Nat × Ev)) : Bool :=
  (List.range l.length).all fun m =>
    match l.getD m (0, .other) with
    | (g, .spawn k _) => k != 0 && k != g && (List.range m).all fun i =>
        (l.getD i (0, .other)).1 != k && match (l.getD i (0, .other)).2 with | .spawn k' _ => k' != k | _ => true
    | _ => true

theorem ofList_fresh (l : List (Nat × Ev)) (h : freshB l = true) : Fresh (ofList l) := by
  intro m g k t hm
  by_cases hl : m < l.length
  · have h1 := List.all_eq_true.1 h m (List.mem_range.2 hl)
    unfold ofList at hm
    rw [hm] at h1
    simp only [Bool.and_eq_true, bne_iff_ne, ne_eq, List.all_eq_true, List.mem_range] at h1
    refine ⟨h1.1.1, h1.1.2, fun i hi => ?_⟩
    have h2 := h1.2 i hi
    refine ⟨h2.1, ?_⟩
    intro g' t' he
    unfold ofList at he
    rw [he] at h2
    simp at h2
  · unfold ofList at hm
    rw [getD_default _ _ (by omega)] at hm
    cases hm

def balancedB (l : List (Nat × Ev)) : Bool :=
  (List.range l.length).all fun m =>
    match l.getD m (0, .other) with
    | (g, .exit _ _) => decide (0 < depth (eventsOf (ofList l) g m))
    | _ => true

theorem ofList_balanced (l : List (Nat × Ev)) (h : balancedB l = true) : Balanced (ofList l) := by
  intro m g t p hm
  by_cases hl : m < l.length
  · have h1 := List.all_eq_true.1 h m (List.mem_range.2 hl)
    have hm' := hm
    unfold ofList at hm'
    rw [hm'] at h1
    exact of_decide_eq_true h1
  · unfold ofList at hm
    rw [getD_default _ _ (by omega)] at hm
    cases hm

/-- Goroutine 0 calls 10, which starts goroutine 1 and ends; goroutine 1 calls 11, which calls 12 and starts goroutine 2, which calls 13. Goroutine 2 ends while
    the export runs; call 11 goes on. -/
def sample : List (Nat × Ev) :=
  [(0, .enter 10 100), (0, .spawn 1 101), (1, .enter 11 102), (1, .enter 12 103), (1, .exit 104 true), (1, .spawn 2 105),
   (2, .enter 13 106), (0, .exit 107 false), (2, .exit 108 false), (2, .done 109)]

def sampleExport : Option (List X × At) := exportTrace ⟨World.after false 100 (ofList sample), fun n => 200 + n, fun _ => 1⟩ 5 7

example : Fresh (ofList sample) := ofList_fresh _ (by decide)
example : Balanced (ofList sample) := ofList_balanced _ (by decide)
example : sampleExport = some ([.node (some 10) 0 7 false false
    [.node none 1 (212 - 100) true false
      [.node (some 11) 2 (211 - 100) true false
        [.node (some 12) 3 4 false true [], .node none 5 9 false false [.node (some 13) 6 8 false false []]]]]], ⟨5, 12⟩) := by rfl
example : Member (ofList sample) 7 2 :=
  .started (.started .root ⟨1, 101, by decide, rfl, by decide⟩) ⟨5, 105, by decide, rfl, by decide⟩
example : Calls (ofList sample) 7 2 13 := ⟨6, 106, by decide, rfl⟩
example : (sampleExport.map fun r => callsOf r.1) = some [10, 11, 12, 13] := by rfl
example : ((exportTrace ⟨World.after true 100 (ofList sample), fun n => 200 + n, fun _ => 1⟩ 5 7).map fun r => callsOf r.1) = some [10] := by rfl

theorem ofList_mem {l : List (Nat × Ev)} {i : Nat} {x : Nat × Ev} (h : ofList l i = x) (hx : x.2 ≠ .other) : i < l.length ∧ x ∈ l := by
  unfold ofList at h
  by_cases hl : i < l.length
  · rw [List.getD, List.getElem?_eq_getElem hl] at h
    exact ⟨hl, by rw [← h]; exact List.getElem_mem hl⟩
  · rw [getD_default _ _ (by omega)] at h
    subst h
    exact absurd rfl hx

/-- the sample's clock reads 100 before its first step and advances by one with each -/
example : Clocked (ofList sample) (fun n => 100 + n) := by
  have early : ∀ i t, (∃ g c, ofList sample i = (g, .enter c t) ∨ ofList sample i = (g, .spawn c t)) → t ≤ 100 + i := by
    rintro i t ⟨g, c, h⟩
    have hl : i < 10 := by
      rcases h with h | h
      · exact (ofList_mem h (by simp)).1
      · exact (ofList_mem h (by simp)).1
    have : i = 0 ∨ i = 1 ∨ i = 2 ∨ i = 3 ∨ i = 4 ∨ i = 5 ∨ i = 6 ∨ i = 7 ∨ i = 8 ∨ i = 9 := by omega
    rcases this with rfl | rfl | rfl | rfl | rfl | rfl | rfl | rfl | rfl | rfl <;> rcases h with h | h <;> cases h <;> decide
  refine ⟨fun i j h => by omega, fun i g c t h => early i t ⟨g, c, .inl h⟩, fun i g k t h => early i t ⟨g, k, .inr h⟩, ?_, ?_⟩
  · intro i j g c t t' p body f h1 h2 _ _
    have m1 := (ofList_mem h1 (by simp)).2
    have m2 := (ofList_mem h2 (by simp)).2
    simp only [sample, List.mem_cons, List.not_mem_nil, Prod.mk.injEq, Ev.enter.injEq, Ev.exit.injEq, reduceCtorEq, and_false, false_or, or_false] at m1 m2
    omega
  · intro i j g k t t' h1 h2
    have m1 := (ofList_mem h1 (by simp)).2
    have m2 := (ofList_mem h2 (by simp)).2
    simp only [sample, List.mem_cons, List.not_mem_nil, Prod.mk.injEq, Ev.spawn.injEq, Ev.done.injEq, reduceCtorEq, and_false, false_or, or_false] at m1 m2
    omega

/-! Where the claim fails. -/

/-- A goroutine started by a traced goroutine outside of every traced call (for example `go func() { go f() }()`, function literals not being traced) is
    not in the trace, and neither are its calls: goroutine 0 calls 10, which starts goroutine 1, which starts goroutine 2, which calls 13. -/
theorem C76_counterexample_dropped :
    ∃ H : Nat → Nat × Ev, Fresh H ∧ Balanced H ∧ H 1 = (0, .spawn 1 1) ∧ H 2 = (1, .spawn 2 2) ∧ Calls H 4 2 13 ∧
      ∀ clock sched, ∃ xs a, exportTrace ⟨World.after false 0 H, clock, sched⟩ 2 5 = some (xs, a) ∧ 13 ∉ callsOf xs := by
  refine ⟨ofList [(0, .enter 10 0), (0, .spawn 1 1), (1, .spawn 2 2), (2, .enter 13 3), (0, .exit 4 false)], ofList_fresh _ (by decide), ofList_balanced _ (by decide), rfl, rfl,
    ⟨3, 3, by decide, rfl⟩, ?_⟩
  intro clock sched
  have fresh : Fresh (ofList [(0, .enter 10 0), (0, .spawn 1 1), (1, .spawn 2 2), (2, .enter 13 3), (0, .exit 4 false)]) := ofList_fresh _ (by decide)
  have bal : Balanced (ofList [(0, .enter 10 0), (0, .spawn 1 1), (1, .spawn 2 2), (2, .enter 13 3), (0, .exit 4 false)]) := ofList_balanced _ (by decide)
  generalize hH : ofList [(0, .enter 10 0), (0, .spawn 1 1), (1, .spawn 2 2), (2, .enter 13 3), (0, .exit 4 false)] = H at fresh bal
  have big : ∀ m, 5 ≤ m → H m = (0, .other) := by
    intro m hm
    rw [← hH]
    unfold ofList
    exact getD_default _ _ (by simpa using hm)
  have hstop : ∀ m g k t, 3 ≤ m → H m ≠ (g, .spawn k t) := by
    intro m g k t hm he
    by_cases h5 : 5 ≤ m
    · rw [big m h5] at he; cases he
    · have : m = 3 ∨ m = 4 := by omega
      rcases this with rfl | rfl <;> rw [← hH] at he <;> cases he
  have hspawn : ∀ i g k t, H i = (g, .spawn k t) → k = 1 ∨ (i = 2 ∧ g = 1 ∧ k = 2) := by
    intro i g k t he
    by_cases h3 : 3 ≤ i
    · exact absurd he (hstop i g k t h3)
    · have : i = 0 ∨ i = 1 ∨ i = 2 := by omega
      rcases this with rfl | rfl | rfl <;> rw [← hH] at he <;> cases he
      · exact .inl rfl
      · exact .inr ⟨rfl, rfl, rfl⟩
  have hcall : ∀ i g c t, H i = (g, .enter c t) → c = 13 → g = 2 := by
    intro i g c t he hc
    by_cases h5 : 5 ≤ i
    · rw [big i h5] at he; cases he
    · have : i = 0 ∨ i = 1 ∨ i = 2 ∨ i = 3 ∨ i = 4 := by omega
      rcases this with rfl | rfl | rfl | rfl | rfl <;> rw [← hH] at he <;> cases he
      · exact absurd hc (by decide)
      · rfl
  have hmem : ∀ m g, Member H m g → g ≠ 2 := by
    intro m g hg
    induction hg with
    | root => decide
    | started _ hs ih =>
      obtain ⟨i, t, -, he, hd⟩ := hs
      rcases hspawn _ _ _ _ he with rfl | ⟨rfl, rfl, rfl⟩
      · decide
      · rw [← hH] at hd
        exact absurd hd (by decide)
  cases hx : exportTrace ⟨World.after false 0 H, clock, sched⟩ 2 5 with
  | none =>
    exfalso
    -- two hops suffice: only goroutine 1 is visited
    have h3 := C76_export_ends_partial H 0 clock sched 5 3 fresh bal hstop
    revert hx
    unfold exportTrace
    simp only [after_root fresh]
    obtain ⟨f, hf⟩ := Balanced.bracketed bal 0 (At.next ⟨0, 5⟩ sched).time
    refine exportEntries_total (snapshot_copies 0 _ hf) ?_ _
    intro q hq b p
    obtain ⟨j, hj, he⟩ := mem_eventsOf.1 (ongoing_goes hf q hq)
    have hj1 : 1 ≤ j := by
      rcases Nat.eq_zero_or_pos j with rfl | h
      · rw [← hH] at he; cases he
      · exact h
    exact visit_total fresh (Balanced.bracketed bal) rfl hstop 2 j 0 q.1 q.2 he (by omega) b p
  | some r =>
    obtain ⟨xs, a⟩ := r
    refine ⟨xs, a, rfl, fun hc => ?_⟩
    obtain ⟨g, hg, i, t, -, he⟩ := C76_only_calls_of_the_trace_partial H 0 clock sched 2 5 fresh bal xs a hx 13 hc
    exact hmem _ _ hg (hcall i g 13 t he rfl)

/-- Each goroutine makes a call in which it starts the next goroutine. -/
def chain : Nat → Nat × Ev := fun n => if n % 2 = 0 then (n / 2, .enter (n / 2) 0) else (n / 2, .spawn (n / 2 + 1) 0)

theorem chain_enter (k : Nat) : chain (2 * k) = (k, .enter k 0) := by
  unfold chain
  rw [if_pos (by omega), show 2 * k / 2 = k by omega]

theorem chain_spawn (k : Nat) : chain (2 * k + 1) = (k, .spawn (k + 1) 0) := by
  unfold chain
  rw [if_neg (by omega), show (2 * k + 1) / 2 = k by omega]

theorem chain_who (n : Nat) : (chain n).1 = n / 2 := by
  unfold chain
  by_cases h : n % 2 = 0 <;> simp [h]

theorem chain_is_spawn {n g k t} (h : chain n = (g, .spawn k t)) : n = 2 * g + 1 ∧ k = g + 1 := by
  have h1 := chain_who n
  rw [h] at h1
  simp only at h1
  rcases (by omega : n = 2 * g ∨ n = 2 * g + 1) with rfl | rfl
  · rw [chain_enter] at h; cases h
  · rw [chain_spawn] at h; cases h; exact ⟨rfl, rfl⟩

theorem chain_fresh : Fresh chain := by
  intro m g k t h
  obtain ⟨rfl, rfl⟩ := chain_is_spawn h
  refine ⟨by omega, by omega, fun i hi => ⟨by rw [chain_who]; omega, ?_⟩⟩
  intro g' t' h'
  have := chain_is_spawn h'
  omega

theorem chain_balanced : Balanced chain := by
  intro m g t p h
  unfold chain at h
  by_cases hm : m % 2 = 0
  · rw [if_pos hm] at h; cases h
  · rw [if_neg hm] at h; cases h

theorem chain_events (k : Nat) : eventsOf chain k (2 * k + 2) = [.enter k 0, .spawn (k + 1) 0] := by
  have h0 : eventsOf chain k (2 * k) = [] := by
    rw [List.eq_nil_iff_forall_not_mem]
    intro e he
    obtain ⟨i, hi, h⟩ := mem_eventsOf.1 he
    have := chain_who i
    rw [h] at this
    simp only at this
    omega
  rw [eventsOf_succ, eventsOf_succ, h0, chain_enter, chain_spawn]
  simp

theorem chain_known (k : Nat) : ∀ m, 2 * k ≤ m → Known chain 0 k 0 m := by
  induction k with
  | zero => intro m _; exact .inl ⟨rfl, rfl⟩
  | succ k ih =>
    intro m hm
    refine .inr ⟨2 * k + 1, k, by omega, chain_spawn k, ?_⟩
    rw [(ih (2 * k + 1) (by omega)).after chain_fresh]
    rfl

theorem chain_never (clock : Nat → Int) : ∀ fuel k b s, visit ⟨World.after false 0 chain, clock, fun _ => 2⟩ fuel k b ⟨s, 2 * k⟩ = none
  | 0, _, _, _ => rfl
  | fuel + 1, k, b, s => by
    rw [visit]
    simp only [At.next]
    rw [(chain_known k (2 * k + 2) (by omega)).after chain_fresh]
    simp only
    have hs : stackAt chain k 0 (2 * k + 2) = ((GStk.new 0).enter k 0).go (k + 1) 0 := by
      unfold stackAt
      rw [chain_events]
      rfl
    rw [hs]
    have hr : (((GStk.new 0).enter k 0).go (k + 1) 0).roots =
        [.mk ⟨1, 0, k, 0, 0, false, false, [1], false⟩ none [.mk ⟨0, 0, 0, 0, 0, false, false, [], true⟩ (some (k + 1)) []]] := by rfl
    rw [hr]
    have ih := chain_never clock fuel (k + 1)
    simp only [exportEntries, exportEntry, Bool.true_and, Option.isSome_some, if_true, Option.getD_some]
    rw [show 2 * k + 2 = 2 * (k + 1) by omega, ih]

/-- While goroutines keep starting goroutines as fast as the export visits them, the export (and so the call of `trace.Trace`) does not end. -/
theorem C76_counterexample_never_ends (clock : Nat → Int) : Fresh chain ∧ Balanced chain ∧
    ∀ fuel, exportTrace ⟨World.after false 0 chain, clock, fun _ => 2⟩ fuel 0 = none := by
  refine ⟨chain_fresh, chain_balanced, fun fuel => ?_⟩
  have h := chain_never clock (fuel + 1) 0 0 0
  unfold exportTrace
  rw [visit] at h
  simp only [At.next, Nat.mul_zero, Nat.zero_add] at h ⊢
  rw [after_root chain_fresh] at h ⊢
  simp only at h ⊢
  generalize hx : exportEntries _ _ _ _ _ _ = r at h ⊢
  cases r with
  | none => rfl
  | some r =>
    exfalso
    obtain ⟨xs, a⟩ := r
    simp only at h
    cases he : (stackAt chain 0 0 2).ended <;> rw [he] at h <;> simp at h

end Verif.Runtime.TraceGo
