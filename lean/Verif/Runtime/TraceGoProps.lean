/-
C76: the export of a trace is a picture of what its goroutines have done.
-/
import Verif.Runtime.TraceGoHeap

namespace Verif.Runtime.TraceGo
open Spec

mutual
/-- the goroutines started by an act -/
def goesIn : Act → List (Nat × Int)
  | .call _ _ _ g => goes g
  | .go k t => [(k, t)]
def goes : List Act → List (Nat × Int)
  | [] => []
  | a :: as => goesIn a ++ goes as
end

theorem goes_append (f g : List Act) : goes (f ++ g) = goes f ++ goes g := by
  induction f with
  | nil => rfl
  | cons a f ih => simp only [List.cons_append, goes, ih, List.append_assoc]

theorem whole_goes {b l f} (h : Whole b l f) : ∀ p ∈ goes f, Ev.spawn p.1 p.2 ∈ l := by
  induction h with
  | nil b => intro p hp; cases hp
  | call h1 h2 ih1 ih2 =>
    intro p hp
    simp only [goes, goesIn, List.mem_append] at hp
    rcases hp with hp | hp
    · exact List.mem_cons_of_mem _ (List.mem_append_left _ (ih1 p hp))
    · exact List.mem_cons_of_mem _ (List.mem_append_right _ (List.mem_cons_of_mem _ (ih2 p hp)))
  | go h ih =>
    intro p hp
    simp only [goes, goesIn, List.mem_append, List.mem_singleton] at hp
    rcases hp with rfl | hp
    · exact List.mem_cons_self ..
    · exact List.mem_cons_of_mem _ (ih p hp)
  | goOutside h ih => intro p hp; exact List.mem_cons_of_mem _ (ih p hp)
  | done h ih => intro p hp; exact List.mem_cons_of_mem _ (ih p hp)
  | other h ih => intro p hp; exact List.mem_cons_of_mem _ (ih p hp)

theorem ongoing_goes {b l f} (h : Ongoing b l f) : ∀ p ∈ goes f, Ev.spawn p.1 p.2 ∈ l := by
  induction h with
  | whole h => exact whole_goes h
  | running h h' ih =>
    intro p hp
    simp only [goes_append, goes, goesIn, List.append_nil, List.mem_append] at hp
    rcases hp with hp | hp
    · exact List.mem_append_left _ (whole_goes h p hp)
    · exact List.mem_append_right _ (List.mem_cons_of_mem _ (ih p hp))

theorem eventsOf_succ (H : Nat → Nat × Ev) (k m : Nat) :
    eventsOf H k (m + 1) = eventsOf H k m ++ (if (H m).1 = k then [(H m).2] else []) := by
  unfold eventsOf upto
  rw [List.range_succ, List.map_append, List.filterMap_append]
  congr 1
  by_cases h : (H m).1 = k <;> simp [h]

theorem mem_eventsOf {H : Nat → Nat × Ev} {k m : Nat} {e : Ev} : e ∈ eventsOf H k m ↔ ∃ i, i < m ∧ H i = (k, e) := by
  unfold eventsOf upto
  simp only [List.mem_filterMap, List.mem_map, List.mem_range]
  constructor
  · rintro ⟨x, ⟨i, hi, rfl⟩, hx⟩
    by_cases h : (H i).1 = k
    · rw [if_pos h] at hx
      cases hx
      exact ⟨i, hi, by rw [← h]⟩
    · rw [if_neg h] at hx; cases hx
  · rintro ⟨i, hi, h⟩
    exact ⟨H i, ⟨i, hi, rfl⟩, by rw [h]; simp⟩

theorem depth_append (l l' : List Ev) : depth (l ++ l') = depth l + depth l' := by
  induction l with
  | nil => simp [depth]
  | cons e l ih => cases e <;> simp only [List.cons_append, depth, ih] <;> omega

theorem whole_depth {b l f} (h : Whole b l f) : depth l = 0 := by
  induction h with
  | nil b => rfl
  | call h1 h2 ih1 ih2 => simp only [depth, depth_append, ih1, ih2]; omega
  | go h ih => simpa [depth] using ih
  | goOutside h ih => simpa [depth] using ih
  | done h ih => simpa [depth] using ih
  | other h ih => simpa [depth] using ih

theorem whole_append {b l f l' f'} (h : Whole b l f) (h' : Whole b l' f') : Whole b (l ++ l') (f ++ f') := by
  induction h with
  | nil b => exact h'
  | @call b c t t' p body rest f g h1 h2 ih1 ih2 =>
    have := Whole.call (c := c) (t := t) (t' := t') (p := p) h1 (ih2 h')
    simpa using this
  | go h ih => exact .go (ih h')
  | goOutside h ih => exact .goOutside (ih h')
  | done h ih => exact .done (ih h')
  | other h ih => exact .other (ih h')

theorem ongoing_depth {b l f} (h : Ongoing b l f) : 0 ≤ depth l ∧ (depth l = 0 → Whole b l f) := by
  induction h with
  | whole h => exact ⟨by rw [whole_depth h]; exact Int.le_refl _, fun _ => h⟩
  | running h h' ih =>
    have := ih.1
    rw [depth_append, whole_depth h]
    simp only [depth]
    exact ⟨by omega, fun h0 => by omega⟩

theorem whole_one {b : Bool} {e : Ev} (h1 : ∀ c t, e ≠ .enter c t) (h2 : ∀ t p, e ≠ .exit t p) : ∃ f, Whole b [e] f := by
  cases e with
  | enter c t => exact absurd rfl (h1 c t)
  | exit t p => exact absurd rfl (h2 t p)
  | spawn k t =>
    cases b with
    | true => exact ⟨_, .go (.nil _)⟩
    | false => exact ⟨_, .goOutside (.nil _)⟩
  | done t => exact ⟨_, .done (.nil _)⟩
  | other => exact ⟨_, .other (.nil _)⟩

theorem ongoing_snoc {b l f} (h : Ongoing b l f) : ∀ e, (∀ t p, e = .exit t p → 0 < depth l) → ∃ f', Ongoing b (l ++ [e]) f' := by
  induction h with
  | @whole b l f h =>
    intro e he
    by_cases h1 : ∃ c t, e = .enter c t
    · obtain ⟨c, t, rfl⟩ := h1
      exact ⟨_, .running h (.whole (.nil _))⟩
    · have h2 : ∀ t p, e ≠ .exit t p := by
        intro t p hx
        have := he t p hx
        rw [whole_depth h] at this
        exact absurd this (by decide)
      obtain ⟨f', hf⟩ := whole_one (b := b) (fun c t hx => h1 ⟨c, t, hx⟩) h2
      exact ⟨_, .whole (whole_append h hf)⟩
  | @running b c t l f l' g h h' ih =>
    intro e he
    by_cases hx : ∃ t p, e = .exit t p ∧ depth l' ≤ 0
    · obtain ⟨t', p, rfl, hd⟩ := hx
      have hw := (ongoing_depth h').2 (by have := (ongoing_depth h').1; omega)
      have := whole_append h (Whole.call (c := c) (t := t) (t' := t') (p := p) hw (.nil b))
      exact ⟨_, .whole (by simpa using this)⟩
    · obtain ⟨f', hf⟩ := ih e (fun t p hxx => by
        have : ¬ depth l' ≤ 0 := fun hd => hx ⟨t, p, hxx, hd⟩
        omega)
      refine ⟨_, (?_ : Ongoing b ((l ++ .enter c t :: l') ++ [e]) (f ++ [.call c t none f']))⟩
      have := Ongoing.running (c := c) (t := t) h hf
      simpa using this

/-- On each goroutine calls return in the reverse order of their beginning. -/
def Bracketed (H : Nat → Nat × Ev) : Prop := ∀ k m, ∃ f, Ongoing false (eventsOf H k m) f

theorem Balanced.bracketed {H : Nat → Nat × Ev} (h : Balanced H) : Bracketed H := by
  intro k m
  induction m with
  | zero => exact ⟨[], .whole (.nil _)⟩
  | succ m ih =>
    obtain ⟨f, hf⟩ := ih
    rw [eventsOf_succ]
    by_cases hk : (H m).1 = k
    · rw [if_pos hk]
      refine ongoing_snoc hf _ ?_
      intro t p he
      exact h m k t p (by rw [← he, ← hk])
    · rw [if_neg hk, List.append_nil]; exact ⟨f, hf⟩

section
variable {H : Nat → Nat × Ev} {b0 : Int}

/-- What goroutine `k`, whose stack began at `t`, has done by moment `m`. -/
def stackAt (H : Nat → Nat × Ev) (k : Nat) (t : Int) (m : Nat) : GStk := (eventsOf H k m).foldl GStk.step (GStk.new t)

theorem after_step (fresh : Fresh H) {k : Nat} {t : Int} {m : Nat} (hs : ∀ g t', H m ≠ (g, .spawn k t'))
    (h : World.after false b0 H m k = some (stackAt H k t m)) :
    World.after false b0 H (m + 1) k = some (stackAt H k t (m + 1)) := by
  have he := eventsOf_succ H k m
  have hf := fresh m
  unfold stackAt
  rw [he, List.foldl_append, World.after, World.step]
  generalize hw : H m = x at *
  obtain ⟨g, e⟩ := x
  simp only at *
  by_cases hg : g = k
  · subst hg
    rw [h]
    simp only [if_true, List.foldl_cons, List.foldl_nil]
    cases e with
    | spawn k' t' =>
      have hne : g ≠ k' := Ne.symm (hf g k' t' rfl).2.1
      simp [World.set, hne, GStk.step, stackAt]
    | _ => simp [World.set, stackAt]
  · have hg' : k ≠ g := Ne.symm hg
    rw [if_neg hg, List.foldl_nil]
    cases World.after false b0 H m g with
    | none => exact h
    | some s =>
      cases e with
      | spawn k' t' =>
        have hne : k ≠ k' := by rintro rfl; exact hs g t' rfl
        simp [World.set, hne, hg', h, stackAt]
      | _ => simp [World.set, hg', h, stackAt]

theorem after_root (fresh : Fresh H) (m : Nat) : World.after false b0 H m 0 = some (stackAt H 0 b0 m) := by
  induction m with
  | zero => simp [World.after, World.start, stackAt, eventsOf, upto]
  | succ m ih => exact after_step fresh (fun g t' h => (fresh m g 0 t' h).1 rfl) ih

/-- Goroutine `k` takes part in the trace, and its stack began at `t`. -/
def Known (H : Nat → Nat × Ev) (b0 : Int) (k : Nat) (t : Int) (m : Nat) : Prop :=
  k = 0 ∧ t = b0 ∨ ∃ i g, i < m ∧ H i = (g, .spawn k t) ∧ (World.after false b0 H i g).isSome

theorem Known.mono {k t m m'} (h : Known H b0 k t m) (hm : m ≤ m') : Known H b0 k t m' := by
  rcases h with h | ⟨i, g, h1, h2, h3⟩
  · exact .inl h
  · exact .inr ⟨i, g, by omega, h2, h3⟩

theorem after_spawned (fresh : Fresh H) {i g k : Nat} {t : Int} (h : H i = (g, .spawn k t)) (hg : (World.after false b0 H i g).isSome) :
    ∀ d, World.after false b0 H (i + 1 + d) k = some (stackAt H k t (i + 1 + d))
  | 0 => by
    have hk := fresh i g k t h
    have he : eventsOf H k (i + 1) = [] := by
      rw [List.eq_nil_iff_forall_not_mem]
      intro e he
      obtain ⟨j, hj, hj'⟩ := mem_eventsOf.1 he
      by_cases hji : j = i
      · subst hji; rw [h] at hj'; exact hk.2.1 (congrArg Prod.fst hj').symm
      · exact (hk.2.2 j (by omega)).1 (by rw [hj'])
    rw [Nat.add_zero, World.after, World.step, h]
    simp only
    obtain ⟨s, hs⟩ := Option.isSome_iff_exists.1 hg
    rw [hs]
    simp [World.set, stackAt, he]
  | d + 1 => after_step (m := i + 1 + d) fresh (fun g' t' h' => ((fresh _ g' k t' h').2.2 i (by omega)).2 g t h) (after_spawned fresh h hg d)

theorem Known.after (fresh : Fresh H) {k t m} (h : Known H b0 k t m) : World.after false b0 H m k = some (stackAt H k t m) := by
  rcases h with ⟨rfl, rfl⟩ | ⟨i, g, h1, h2, h3⟩
  · exact after_root fresh m
  · have := after_spawned fresh h2 h3 (m - (i + 1))
    rwa [show i + 1 + (m - (i + 1)) = m by omega] at this

/-- A goroutine that takes part already did when it did anything. -/
theorem Known.past (fresh : Fresh H) {k t m i e} (h : Known H b0 k t m) (hi : H i = (k, e)) : (World.after false b0 H i k).isSome := by
  rcases h with ⟨rfl, rfl⟩ | ⟨j, g, h1, h2, h3⟩
  · rw [after_root fresh i]; rfl
  · have hk := fresh j g k t h2
    have hji : j < i := by
      rcases Nat.lt_trichotomy i j with h | h | h
      · exact absurd (congrArg Prod.fst hi) (hk.2.2 i h).1
      · subst h; rw [h2] at hi; exact absurd (congrArg Prod.fst hi).symm hk.2.1
      · exact h
    have := after_spawned fresh h2 h3 (i - (j + 1))
    rw [show j + 1 + (i - (j + 1)) = i by omega] at this
    rw [this]; rfl

theorem Known.child (fresh : Fresh H) {g t0 m f k t} (h : Known H b0 g t0 m) (hf : Ongoing false (eventsOf H g m) f) (hk : (k, t) ∈ goes f) :
    Known H b0 k t m := by
  obtain ⟨i, hi, he⟩ := mem_eventsOf.1 (ongoing_goes hf _ hk)
  exact .inr ⟨i, g, hi, he, h.past fresh he⟩

/-! The picture grows with the end of the interval. -/

mutual
theorem Picture.mono {clock} {hi hi' : Nat} (hh : hi ≤ hi') : ∀ {lo k e xs}, Picture H clock b0 hi lo k e xs → Picture H clock b0 hi' lo k e xs
  | _, _, _, _, .mk h1 h2 h3 h4 => .mk h1 (Nat.le_trans h2 hh) h3 (Shown.mono hh h4)
theorem Shown.mono {clock} {hi hi' : Nat} (hh : hi ≤ hi') : ∀ {lo f xs}, Shown H clock b0 hi lo f xs → Shown H clock b0 hi' lo f xs
  | _, _, _, .nil lo => .nil lo
  | _, _, _, .ended h1 h2 => .ended (Shown.mono hh h1) (Shown.mono hh h2)
  | _, _, _, .running h1 h2 h3 h4 => .running (Shown.mono hh h1) h2 (Nat.le_trans h3 hh) (Shown.mono hh h4)
  | _, _, _, .goEnded h1 h2 => .goEnded (Picture.mono hh h1) (Shown.mono hh h2)
  | _, _, _, .goRunning h1 h2 h3 h4 => .goRunning (Picture.mono hh h1) h2 (Nat.le_trans h3 hh) (Shown.mono hh h4)
end

theorem At.next_le (a : At) (sched) : a.time ≤ (a.next sched).time := Nat.le_add_right ..

/-- What a visit of a child stack should give. -/
def GoodHop (H : Nat → Nat × Ev) (b0 : Int) (E : Env) (hop : Hop) : Prop :=
  ∀ k t a r a', Known H b0 k t a.time → hop k (t - b0) a = some (r, a') →
    a.time ≤ a'.time ∧ ∃ e running xs, r = some (e, running, xs) ∧
      ((running = false ∧ ∃ e0, e = e0 - b0 ∧ Picture H E.clock b0 a'.time a.time k (some e0) xs) ∨
       (running = true ∧ ∃ now, a.time ≤ now ∧ now ≤ a'.time ∧ e = E.clock now - b0 ∧ Picture H E.clock b0 a'.time a.time k none xs))

theorem Picture.lower {clock} {hi lo lo' k e xs} (h : Picture H clock b0 hi lo k e xs) (hl : lo' ≤ lo) : Picture H clock b0 hi lo' k e xs := by
  cases h with
  | mk h1 h2 h3 h4 => exact .mk (Nat.le_trans hl h1) h2 h3 h4

mutual
theorem exportEntry_shown {E : Env} {hop : Hop} (hh : GoodHop H b0 E hop) {t : Int} {lo : Nat} : ∀ {x a}, Copy t x a → ∀ (p p' : At) (y : X),
    (∀ q ∈ goesIn a, Known H b0 q.1 q.2 p.time) → lo ≤ p.time → exportEntry E hop t (t - b0) p x = some (y, p') →
    p.time ≤ p'.time ∧ ∀ {rest ys hi}, p'.time ≤ hi → Shown H E.clock b0 hi lo rest ys → Shown H E.clock b0 hi lo (a :: rest) (y :: ys)
  | .mk n sid ents, _, @Copy.ended _ _ _ _ c b e q g h1 h2 h3 h4 h5 h6 h7 => by
    intro p p' y hk hlo h
    rw [exportEntry] at h
    cases hx : exportEntries E hop t (t - b0) p ents with
    | none => rw [hx] at h; cases h
    | some r =>
      obtain ⟨xs, p1⟩ := r
      obtain ⟨g1, g2⟩ := exportEntries_shown hh h7 _ _ _ hk hlo hx
      rw [hx] at h
      simp only [h1, Bool.false_and, h4, Bool.not_true] at h
      cases h
      refine ⟨g1, fun hhi hr => ?_⟩
      have e1 : n.beginNs + (t - b0) = b - b0 := by omega
      have e2 : n.endNs + (t - b0) = e - b0 := by omega
      simp only [e1, e2, h2, h6]
      exact .ended (Shown.mono hhi g2) hr
  | .mk n sid ents, _, @Copy.running _ _ _ _ c b g h1 h2 h3 h4 h5 h6 h7 => by
    intro p p' y hk hlo h
    rw [exportEntry] at h
    cases hx : exportEntries E hop t (t - b0) p ents with
    | none => rw [hx] at h; cases h
    | some r =>
      obtain ⟨xs, p1⟩ := r
      obtain ⟨g1, g2⟩ := exportEntries_shown hh h7 _ _ _ hk hlo hx
      rw [hx] at h
      simp only [h1, Bool.false_and, h4, Bool.not_false] at h
      have hn := At.next_le p1 E.sched
      cases h
      refine ⟨Nat.le_trans g1 hn, fun hhi hr => ?_⟩
      have e1 : n.beginNs + (t - b0) = b - b0 := by omega
      have e2 : n.endNs + (t - b0) + (E.clock (p1.next E.sched).time - t) = E.clock (p1.next E.sched).time - b0 := by omega
      simp only [e1, e2, h2, h6]
      exact .running (Shown.mono (Nat.le_trans hn hhi) g2) (Nat.le_trans hlo (Nat.le_trans g1 hn)) hhi hr
  | .mk n _ _, _, @Copy.go _ _ k u h1 h2 h3 => by
    intro p p' y hk hlo h
    rw [exportEntry, exportEntries] at h
    simp only [h1, Option.isSome_some, Bool.and_self, if_true, Option.getD_some] at h
    have e1 : n.beginNs + (t - b0) = u - b0 := by omega
    rw [e1] at h
    cases hv : hop k (u - b0) p with
    | none => rw [hv] at h; cases h
    | some r =>
      obtain ⟨r, p1⟩ := r
      obtain ⟨g1, e, running, xs, rfl, g2⟩ := hh k u p r p1 (hk (k, u) (by simp [goesIn])) hv
      rw [hv] at h
      simp only [h3] at h
      cases h
      refine ⟨g1, fun hhi hr => ?_⟩
      rcases g2 with ⟨rfl, e0, rfl, hp⟩ | ⟨rfl, now, n1, n2, rfl, hp⟩
      · exact .goEnded (Picture.lower (Picture.mono hhi hp) hlo) hr
      · exact .goRunning (Picture.lower (Picture.mono hhi hp) hlo) (Nat.le_trans hlo n1) (Nat.le_trans n2 hhi) hr
theorem exportEntries_shown {E : Env} {hop : Hop} (hh : GoodHop H b0 E hop) {t : Int} {lo : Nat} : ∀ {ents f}, Copies t ents f → ∀ (p p' : At) (xs : List X),
    (∀ q ∈ goes f, Known H b0 q.1 q.2 p.time) → lo ≤ p.time → exportEntries E hop t (t - b0) p ents = some (xs, p') →
    p.time ≤ p'.time ∧ Shown H E.clock b0 p'.time lo f xs
  | _, _, .nil => by
    intro p p' xs _ _ h
    rw [exportEntries] at h
    cases h
    exact ⟨Nat.le_refl _, .nil _⟩
  | x :: ents, _, @Copies.cons _ _ a _ as h1 h2 => by
    intro p p' xs hk hlo h
    rw [exportEntries] at h
    cases hx : exportEntry E hop t (t - b0) p x with
    | none => rw [hx] at h; cases h
    | some r =>
      obtain ⟨y, p1⟩ := r
      obtain ⟨g1, g2⟩ := exportEntry_shown hh h1 _ _ _ (fun q hq => hk q (List.mem_append_left _ hq)) hlo hx
      rw [hx] at h
      simp only at h
      cases hy : exportEntries E hop t (t - b0) p1 ents with
      | none => rw [hy] at h; cases h
      | some r =>
        obtain ⟨ys, p2⟩ := r
        obtain ⟨g3, g4⟩ := exportEntries_shown hh h2 _ _ _ (fun q hq => (hk q (List.mem_append_right _ hq)).mono g1) (Nat.le_trans hlo g1) hy
        rw [hy] at h
        cases h
        exact ⟨Nat.le_trans g1 g3, g2 g3 g4⟩
end

theorem stackAt_begin (k t m) : (stackAt H k t m).stk.begin = t := run_begin _ _

theorem visit_good (fresh : Fresh H) (brack : Bracketed H) {E : Env} (hE : E.world = World.after false b0 H) : ∀ fuel, GoodHop H b0 E (visit E fuel)
  | 0 => by intro k t a r a' _ h; cases h
  | fuel + 1 => by
    intro k t a r a' hk h
    have hn := At.next_le a E.sched
    have hk' := hk.mono hn
    obtain ⟨f, hf⟩ := brack k (a.next E.sched).time
    rw [visit, hE] at h
    simp only [hk'.after fresh, stackAt_begin] at h
    cases hx : exportEntries E (visit E fuel) t (t - b0) (a.next E.sched) (stackAt H k t (a.next E.sched).time).roots with
    | none => rw [hx] at h; cases h
    | some r =>
      obtain ⟨xs, a1⟩ := r
      obtain ⟨g1, g2⟩ := exportEntries_shown (visit_good fresh brack hE fuel) (snapshot_copies t _ hf) _ _ _
        (fun q hq => hk'.child fresh hf hq) (Nat.le_refl _) hx
      rw [hx] at h
      simp only at h
      have he : (stackAt H k t (a.next E.sched).time).ended = endOf (eventsOf H k (a.next E.sched).time) := run_ended _ _ rfl
      rw [he] at h
      have pic : ∀ hi, a1.time ≤ hi → Picture H E.clock b0 hi a.time k (endOf (eventsOf H k (a.next E.sched).time)) xs :=
        fun hi hhi => .mk hn (Nat.le_trans g1 hhi) hf (Shown.mono hhi g2)
      cases hd : endOf (eventsOf H k (a.next E.sched).time) with
      | none =>
        rw [hd] at h pic
        simp only at h
        have hn1 := At.next_le a1 E.sched
        cases h
        exact ⟨Nat.le_trans hn (Nat.le_trans g1 hn1), _, _, _, rfl, .inr ⟨rfl, _, Nat.le_trans hn (Nat.le_trans g1 hn1), Nat.le_refl _, by omega, pic _ hn1⟩⟩
      | some e =>
        rw [hd] at h pic
        cases h
        exact ⟨Nat.le_trans hn g1, _, _, _, rfl, .inl ⟨rfl, e, by omega, pic _ (Nat.le_refl _)⟩⟩

end

/-- C76. For every program, every interleaving of its goroutines and every scheduling of the export among them: when the export of a trace ends, it
    has written a picture of what the goroutines of the trace had done, each at one moment during the export, with all times counted from the
    beginning of the trace. Under each call are exactly the traced calls it made and the goroutines it started, in order; under each goroutine what
    that goroutine had done. -/
theorem C76_export_is_a_picture_partial (H : Nat → Nat × Ev) (begin : Int) (clock : Nat → Int) (sched : Nat → Nat) (fuel start : Nat)
    (fresh : Fresh H) (bal : Balanced H) (xs : List X) (a : At)
    (h : exportTrace ⟨World.after false begin H, clock, sched⟩ fuel start = some (xs, a)) :
    ∃ e, Picture H clock begin a.time start 0 e xs := by
  have brack := Balanced.bracketed bal
  unfold exportTrace at h
  simp only [after_root fresh, stackAt_begin] at h
  obtain ⟨f, hf⟩ := brack 0 (At.next ⟨0, start⟩ sched).time
  have hroot : ∀ m, Known H begin 0 begin m := fun m => .inl ⟨rfl, rfl⟩
  rw [show (0 : Int) = begin - begin by omega] at h
  obtain ⟨g1, g2⟩ := exportEntries_shown (visit_good fresh brack rfl fuel) (snapshot_copies begin _ hf) _ _ _ (fun q hq => (hroot _).child fresh hf hq)
    (Nat.le_refl _) h
  exact ⟨_, .mk (At.next_le ⟨0, start⟩ sched) g1 hf g2⟩

end Verif.Runtime.TraceGo
