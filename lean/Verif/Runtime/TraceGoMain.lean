/-
C76: which calls a trace shows, when its export ends, and its times.
-/
import Verif.Runtime.TraceGoProps

namespace Verif.Runtime.TraceGo
open Spec

mutual
def actCallsIn : Act → List Nat
  | .call c _ _ g => c :: actCalls g
  | .go _ _ => []
def actCalls : List Act → List Nat
  | [] => []
  | a :: as => actCallsIn a ++ actCalls as
end

/-- the calls begun by the events of a goroutine -/
def enters (l : List Ev) : List Nat := l.filterMap fun e => match e with | .enter c _ => some c | _ => none

theorem actCalls_append (f g : List Act) : actCalls (f ++ g) = actCalls f ++ actCalls g := by
  induction f with
  | nil => rfl
  | cons a f ih => simp only [List.cons_append, actCalls, ih, List.append_assoc]

theorem whole_calls {b l f} (h : Whole b l f) : actCalls f = enters l := by
  induction h with
  | nil b => rfl
  | call h1 h2 ih1 ih2 => simp [actCalls, actCallsIn, enters, ih1, ih2]
  | go h ih => simpa [actCalls, actCallsIn, enters] using ih
  | goOutside h ih => simpa [enters] using ih
  | done h ih => simpa [enters] using ih
  | other h ih => simpa [enters] using ih

theorem ongoing_calls {b l f} (h : Ongoing b l f) : actCalls f = enters l := by
  induction h with
  | whole h => exact whole_calls h
  | running h h' ih => simp [actCalls_append, actCalls, actCallsIn, enters, whole_calls h, ih]

theorem whole_has {b l f} (h : Whole b l f) : ∀ {pre k t post}, l = pre ++ .spawn k t :: post → (b = true ∨ 0 < depth pre) → (k, t) ∈ goes f := by
  induction h with
  | nil b => intro pre k t post h; simp at h
  | @call b c t0 t' p body rest f g h1 h2 ih1 ih2 =>
    intro pre k t post h hd
    simp only [goes, goesIn, List.mem_append]
    cases pre with
    | nil => simp at h
    | cons x pre =>
      simp only [List.cons_append, List.cons.injEq] at h
      obtain ⟨rfl, h⟩ := h
      rcases List.append_eq_append_iff.1 h with ⟨as, e1, e2⟩ | ⟨as, e1, e2⟩
      · cases as with
        | nil => simp at e2
        | cons y as =>
          simp only [List.cons_append, List.cons.injEq] at e2
          obtain ⟨rfl, e2⟩ := e2
          refine .inr (ih2 e2 ?_)
          rcases hd with hd | hd
          · exact .inl hd
          · right
            rw [e1] at hd
            simp only [depth, depth_append, whole_depth h1] at hd
            omega
      · cases as with
        | nil => simp at e2
        | cons y as =>
          simp only [List.cons_append, List.cons.injEq] at e2
          obtain ⟨rfl, e2⟩ := e2
          exact .inl (ih1 e1 (.inl rfl))
  | @go k0 t0 rest g h ih =>
    intro pre k t post he hd
    cases pre with
    | nil =>
      simp only [List.nil_append, List.cons.injEq, Ev.spawn.injEq] at he
      obtain ⟨⟨rfl, rfl⟩, -⟩ := he
      simp [goes, goesIn]
    | cons x pre =>
      simp only [List.cons_append, List.cons.injEq] at he
      simp only [goes, List.mem_append]
      exact .inr (ih he.2 (.inl rfl))
  | @goOutside k0 t0 rest g h ih =>
    intro pre k t post he hd
    cases pre with
    | nil => rcases hd with hd | hd <;> simp [depth] at hd
    | cons x pre =>
      simp only [List.cons_append, List.cons.injEq] at he
      obtain ⟨rfl, he⟩ := he
      exact ih he (by simpa [depth] using hd)
  | @done b t0 rest g h ih =>
    intro pre k t post he hd
    cases pre with
    | nil => simp at he
    | cons x pre =>
      simp only [List.cons_append, List.cons.injEq] at he
      obtain ⟨rfl, he⟩ := he
      exact ih he (by simpa [depth] using hd)
  | @other b rest g h ih =>
    intro pre k t post he hd
    cases pre with
    | nil => simp at he
    | cons x pre =>
      simp only [List.cons_append, List.cons.injEq] at he
      obtain ⟨rfl, he⟩ := he
      exact ih he (by simpa [depth] using hd)

theorem ongoing_has {b l f} (h : Ongoing b l f) : ∀ {pre k t post}, l = pre ++ .spawn k t :: post → (b = true ∨ 0 < depth pre) → (k, t) ∈ goes f := by
  induction h with
  | whole h => exact whole_has h
  | @running b c t0 l f l' g h h' ih =>
    intro pre k t post he hd
    simp only [goes_append, goes, goesIn, List.append_nil, List.mem_append]
    rcases List.append_eq_append_iff.1 he with ⟨as, e1, e2⟩ | ⟨as, e1, e2⟩
    · cases as with
      | nil => simp at e2
      | cons y as =>
        simp only [List.cons_append, List.cons.injEq] at e2
        exact .inr (ih e2.2 (.inl rfl))
    · cases as with
      | nil => simp at e2
      | cons y as =>
        simp only [List.cons_append, List.cons.injEq] at e2
        obtain ⟨rfl, e2⟩ := e2
        exact .inl (whole_has h e1 hd)

theorem eventsOf_split {H : Nat → Nat × Ev} {k i m : Nat} {e : Ev} (h : H i = (k, e)) (hi : i < m) :
    ∃ post, eventsOf H k m = eventsOf H k i ++ e :: post := by
  induction m with
  | zero => omega
  | succ m ih =>
    rw [eventsOf_succ]
    by_cases hm : i = m
    · subst hm
      exact ⟨[], by simp [h]⟩
    · obtain ⟨post, hp⟩ := ih (by omega)
      exact ⟨post ++ _, by rw [hp, List.append_assoc, List.cons_append]⟩

section
variable {H : Nat → Nat × Ev} {clock : Nat → Int} {b0 : Int} {hi : Nat}

theorem callsOf_append (xs ys : List X) : callsOf (xs ++ ys) = callsOf xs ++ callsOf ys := by
  induction xs with
  | nil => rfl
  | cons x xs ih => simp only [List.cons_append, callsOf, ih, List.append_assoc]

theorem Shown.own : ∀ {lo f xs}, Shown H clock b0 hi lo f xs → ∀ c ∈ actCalls f, c ∈ callsOf xs
  | _, _, _, .nil _, c, hc => hc
  | _, _, _, .ended h1 h2, c, hc => by
    simp only [actCalls, actCallsIn, List.cons_append, List.mem_cons, List.mem_append] at hc
    simp only [callsOf, callsIn, Option.toList, List.singleton_append, List.mem_cons, List.mem_append]
    rcases hc with rfl | hc | hc
    · simp
    · exact .inl (.inr (Shown.own h1 c hc))
    · exact .inr (Shown.own h2 c hc)
  | _, _, _, .running h1 _ _ h2, c, hc => by
    simp only [actCalls, actCallsIn, List.cons_append, List.mem_cons, List.mem_append] at hc
    simp only [callsOf, callsIn, Option.toList, List.singleton_append, List.mem_cons, List.mem_append]
    rcases hc with rfl | hc | hc
    · simp
    · exact .inl (.inr (Shown.own h1 c hc))
    · exact .inr (Shown.own h2 c hc)
  | _, _, _, .goEnded _ h2, c, hc => by
    simp only [actCalls, actCallsIn, List.nil_append] at hc
    simp only [callsOf, List.mem_append]
    exact .inr (Shown.own h2 c hc)
  | _, _, _, .goRunning _ _ _ h2, c, hc => by
    simp only [actCalls, actCallsIn, List.nil_append] at hc
    simp only [callsOf, List.mem_append]
    exact .inr (Shown.own h2 c hc)

theorem Shown.sub : ∀ {lo f xs}, Shown H clock b0 hi lo f xs → ∀ k t, (k, t) ∈ goes f →
    ∃ e ys, Picture H clock b0 hi lo k e ys ∧ ∀ c ∈ callsOf ys, c ∈ callsOf xs
  | _, _, _, .nil _, k, t, hk => by cases hk
  | _, _, _, .ended h1 h2, k, t, hk => by
    simp only [goes, goesIn, List.mem_append] at hk
    rcases hk with hk | hk
    · obtain ⟨e, ys, g1, g2⟩ := Shown.sub h1 k t hk
      exact ⟨e, ys, g1, fun c hc => by simp [callsOf, callsIn, g2 c hc]⟩
    · obtain ⟨e, ys, g1, g2⟩ := Shown.sub h2 k t hk
      exact ⟨e, ys, g1, fun c hc => by simp [callsOf, g2 c hc]⟩
  | _, _, _, .running h1 _ _ h2, k, t, hk => by
    simp only [goes, goesIn, List.mem_append] at hk
    rcases hk with hk | hk
    · obtain ⟨e, ys, g1, g2⟩ := Shown.sub h1 k t hk
      exact ⟨e, ys, g1, fun c hc => by simp [callsOf, callsIn, g2 c hc]⟩
    · obtain ⟨e, ys, g1, g2⟩ := Shown.sub h2 k t hk
      exact ⟨e, ys, g1, fun c hc => by simp [callsOf, g2 c hc]⟩
  | _, _, _, .goEnded h1 h2, k, t, hk => by
    simp only [goes, goesIn, List.mem_append, List.mem_singleton, Prod.mk.injEq] at hk
    rcases hk with ⟨rfl, rfl⟩ | hk
    · exact ⟨_, _, h1, fun c hc => by simp [callsOf, callsIn, hc]⟩
    · obtain ⟨e, ys, g1, g2⟩ := Shown.sub h2 k t hk
      exact ⟨e, ys, g1, fun c hc => by simp [callsOf, g2 c hc]⟩
  | _, _, _, .goRunning h1 _ _ h2, k, t, hk => by
    simp only [goes, goesIn, List.mem_append, List.mem_singleton, Prod.mk.injEq] at hk
    rcases hk with ⟨rfl, rfl⟩ | hk
    · exact ⟨_, _, h1, fun c hc => by simp [callsOf, callsIn, hc]⟩
    · obtain ⟨e, ys, g1, g2⟩ := Shown.sub h2 k t hk
      exact ⟨e, ys, g1, fun c hc => by simp [callsOf, g2 c hc]⟩

theorem member_shown {lo e xs} (h : Picture H clock b0 hi lo 0 e xs) {k} (hm : Member H lo k) :
    ∃ lo' e' ys, lo ≤ lo' ∧ Picture H clock b0 hi lo' k e' ys ∧ ∀ c ∈ callsOf ys, c ∈ callsOf xs := by
  induction hm with
  | root => exact ⟨lo, e, xs, Nat.le_refl _, h, fun _ hc => hc⟩
  | started hg hs ih =>
    obtain ⟨lo', e', ys, g1, g2, g3⟩ := ih
    obtain ⟨i, t, hi, he, hd⟩ := hs
    cases g2 with
    | @mk _ m _ f _ p1 p2 p3 p4 =>
      obtain ⟨post, hp⟩ := eventsOf_split he (show i < m by omega)
      obtain ⟨e2, zs, q1, q2⟩ := Shown.sub p4 _ t (ongoing_has p3 hp (.inr hd))
      exact ⟨m, e2, zs, by omega, q1, fun c hc => g3 c (q2 c hc)⟩

theorem Picture.has {lo k e xs} (h : Picture H clock b0 hi lo k e xs) {c} (hc : Calls H lo k c) : c ∈ callsOf xs := by
  obtain ⟨i, t, hi, he⟩ := hc
  cases h with
  | mk p1 p2 p3 p4 =>
    refine Shown.own p4 c ?_
    rw [ongoing_calls p3]
    exact List.mem_filterMap.2 ⟨_, mem_eventsOf.2 ⟨i, by omega, he⟩, rfl⟩

/-- Goroutine `g` is `k` or was started by one that is. -/
inductive Desc (H : Nat → Nat × Ev) (k : Nat) : Nat → Prop where
  | refl : Desc H k k
  | step {g g'} (i t) : Desc H k g → H i = (g, .spawn g' t) → Desc H k g'

theorem Desc.trans {a b c} (h : Desc H a b) (h' : Desc H b c) : Desc H a c := by
  induction h' with
  | refl => exact h
  | step i t _ he ih => exact .step i t ih he

mutual
theorem Picture.only : ∀ {lo k e xs}, Picture H clock b0 hi lo k e xs → ∀ c ∈ callsOf xs, ∃ g, Desc H k g ∧ Calls H hi g c
  | _, k, _, _, @Picture.mk _ _ _ _ lo m _ f xs p1 p2 p3 p4 => by
    intro c hc
    rcases Shown.only p4 c hc with h | ⟨q, hq, g, hg, hcall⟩
    · rw [ongoing_calls p3] at h
      obtain ⟨e, he, hx⟩ := List.mem_filterMap.1 h
      obtain ⟨i, hi', he⟩ := mem_eventsOf.1 he
      cases e with
      | enter c' t => cases hx; exact ⟨k, .refl, i, t, by omega, he⟩
      | _ => cases hx
    · obtain ⟨i, hi', he⟩ := mem_eventsOf.1 (ongoing_goes p3 q hq)
      exact ⟨g, (Desc.step i q.2 .refl he).trans hg, hcall⟩
theorem Shown.only : ∀ {lo f xs}, Shown H clock b0 hi lo f xs → ∀ c ∈ callsOf xs,
    c ∈ actCalls f ∨ ∃ q ∈ goes f, ∃ g, Desc H q.1 g ∧ Calls H hi g c
  | _, _, _, .nil _ => by intro c hc; cases hc
  | _, _, _, .ended h1 h2 => by
    intro c hc
    simp only [callsOf, callsIn, Option.toList, List.singleton_append, List.mem_cons, List.mem_append] at hc
    simp only [actCalls, actCallsIn, goes, goesIn, List.cons_append, List.mem_cons, List.mem_append]
    rcases hc with (rfl | hc) | hc
    · exact .inl (.inl rfl)
    · rcases Shown.only h1 c hc with h | ⟨q, hq, r⟩
      · exact .inl (.inr (.inl h))
      · exact .inr ⟨q, .inl hq, r⟩
    · rcases Shown.only h2 c hc with h | ⟨q, hq, r⟩
      · exact .inl (.inr (.inr h))
      · exact .inr ⟨q, .inr hq, r⟩
  | _, _, _, .running h1 _ _ h2 => by
    intro c hc
    simp only [callsOf, callsIn, Option.toList, List.singleton_append, List.mem_cons, List.mem_append] at hc
    simp only [actCalls, actCallsIn, goes, goesIn, List.cons_append, List.mem_cons, List.mem_append]
    rcases hc with (rfl | hc) | hc
    · exact .inl (.inl rfl)
    · rcases Shown.only h1 c hc with h | ⟨q, hq, r⟩
      · exact .inl (.inr (.inl h))
      · exact .inr ⟨q, .inl hq, r⟩
    · rcases Shown.only h2 c hc with h | ⟨q, hq, r⟩
      · exact .inl (.inr (.inr h))
      · exact .inr ⟨q, .inr hq, r⟩
  | _, _, _, .goEnded h1 h2 => by
    intro c hc
    simp only [callsOf, callsIn, Option.toList, List.nil_append, List.mem_append] at hc
    simp only [actCalls, actCallsIn, goes, goesIn, List.nil_append, List.mem_append, List.mem_singleton]
    rcases hc with hc | hc
    · exact .inr ⟨_, .inl rfl, Picture.only h1 c hc⟩
    · rcases Shown.only h2 c hc with h | ⟨q, hq, r⟩
      · exact .inl h
      · exact .inr ⟨q, .inr hq, r⟩
  | _, _, _, .goRunning h1 _ _ h2 => by
    intro c hc
    simp only [callsOf, callsIn, Option.toList, List.nil_append, List.mem_append] at hc
    simp only [actCalls, actCallsIn, goes, goesIn, List.nil_append, List.mem_append, List.mem_singleton]
    rcases hc with hc | hc
    · exact .inr ⟨_, .inl rfl, Picture.only h1 c hc⟩
    · rcases Shown.only h2 c hc with h | ⟨q, hq, r⟩
      · exact .inl h
      · exact .inr ⟨q, .inr hq, r⟩
end

/-! Each call once. -/

theorem spawn_unique (fresh : Fresh H) {i j g g' k t t'} (h : H i = (g, .spawn k t)) (h' : H j = (g', .spawn k t')) : i = j := by
  rcases Nat.lt_trichotomy i j with hl | hl | hl
  · exact absurd h (((fresh j g' k t' h').2.2 i hl).2 g t)
  · exact hl
  · exact absurd h' (((fresh i g k t h).2.2 j hl).2 g' t')

theorem later (fresh : Fresh H) {i g k t j e} (h : H i = (g, .spawn k t)) (he : H j = (k, e)) : i < j := by
  have hk := fresh i g k t h
  rcases Nat.lt_trichotomy i j with hl | hl | hl
  · exact hl
  · subst hl; rw [h] at he; exact absurd (congrArg Prod.fst he).symm hk.2.1
  · exact absurd (congrArg Prod.fst he) (hk.2.2 j hl).1

theorem desc_later (fresh : Fresh H) {i g k t g'} (h : H i = (g, .spawn k t)) (hd : Desc H k g') : ∀ {j e}, H j = (g', e) → i < j := by
  induction hd with
  | refl => intro j e he; exact later fresh h he
  | step i' t' hd he' ih => intro j e he; exact Nat.lt_trans (ih he') (later fresh he' he)

theorem desc_line (fresh : Fresh H) {a b g} (ha : Desc H a g) : Desc H b g → Desc H a b ∨ Desc H b a := by
  induction ha with
  | refl => intro hb; exact .inr hb
  | @step g' g i t hd he ih =>
    intro hb
    cases hb with
    | refl => exact .inl (.step i t hd he)
    | @step g'' _ j t' hd' he' =>
      have := spawn_unique fresh he he'
      subst this
      rw [he] at he'
      cases he'
      exact ih hd'

/-- Two goroutines started by the same one have no common descendant. -/
theorem desc_disjoint (fresh : Fresh H) {i j k a b t t' g} (ha : H i = (k, .spawn a t)) (hb : H j = (k, .spawn b t')) (hne : a ≠ b)
    (da : Desc H a g) (db : Desc H b g) : False := by
  have aux : ∀ {i j a b t t'}, H i = (k, .spawn a t) → H j = (k, .spawn b t') → a ≠ b → Desc H a b → False := by
    intro i j a b t t' ha hb hne hd
    cases hd with
    | refl => exact hne rfl
    | @step g' _ j' t'' hd he =>
      have := spawn_unique fresh hb he
      subst this
      rw [hb] at he
      cases he
      exact absurd (desc_later fresh ha hd ha) (Nat.lt_irrefl _)
  rcases desc_line fresh da db with h | h
  · exact aux ha hb hne h
  · exact aux hb ha hne.symm h

theorem desc_not (fresh : Fresh H) {i k a t} (ha : H i = (k, .spawn a t)) : ¬ Desc H a k :=
  fun h => absurd (desc_later fresh ha h ha) (Nat.lt_irrefl _)

/-- The acts of one goroutine: what two different acts show is disjoint. -/
structure Own (H : Nat → Nat × Ev) (k : Nat) (f : List Act) : Prop where
  calls : ∀ c ∈ actCalls f, ∃ i t, H i = (k, .enter c t)
  goes : ∀ q ∈ goes f, ∃ i, H i = (k, .spawn q.1 q.2)
  once : (actCalls f).Nodup
  goOnce : ((TraceGo.goes f).map Prod.fst).Nodup

theorem apart (fresh : Fresh H) (dist : DistinctCalls H) {k : Nat} {cs cs' : List Nat} {gs gs' : List (Nat × Int)}
    (h1 : ∀ c ∈ cs ++ cs', ∃ i t, H i = (k, .enter c t)) (h2 : ∀ q ∈ gs ++ gs', ∃ i, H i = (k, .spawn q.1 q.2))
    (h3 : (cs ++ cs').Nodup) (h4 : ((gs ++ gs').map Prod.fst).Nodup) {c c' : Nat}
    (ha : c ∈ cs ∨ ∃ q ∈ gs, ∃ g, Desc H q.1 g ∧ Calls H hi g c)
    (hb : c' ∈ cs' ∨ ∃ q ∈ gs', ∃ g, Desc H q.1 g ∧ Calls H hi g c') : c ≠ c' := by
  rintro rfl
  rcases ha with ha | ⟨q, hq, g, hg, i, t, -, hi⟩ <;> rcases hb with hb | ⟨q', hq', g', hg', i', t', -, hi'⟩
  · exact (List.nodup_append.1 h3).2.2 c ha c hb rfl
  · obtain ⟨i, t, hi⟩ := h1 c (List.mem_append_left _ ha)
    have := dist _ _ _ _ _ _ _ hi hi'
    subst this
    rw [hi] at hi'
    cases hi'
    obtain ⟨j, hj⟩ := h2 q' (List.mem_append_right _ hq')
    exact desc_not fresh hj hg'
  · obtain ⟨i', t', hi'⟩ := h1 c (List.mem_append_right _ hb)
    have := dist _ _ _ _ _ _ _ hi hi'
    subst this
    rw [hi] at hi'
    cases hi'
    obtain ⟨j, hj⟩ := h2 q (List.mem_append_left _ hq)
    exact desc_not fresh hj hg
  · have := dist _ _ _ _ _ _ _ hi hi'
    subst this
    rw [hi] at hi'
    cases hi'
    obtain ⟨j, hj⟩ := h2 q (List.mem_append_left _ hq)
    obtain ⟨j', hj'⟩ := h2 q' (List.mem_append_right _ hq')
    rw [List.map_append] at h4
    exact desc_disjoint fresh hj hj' ((List.nodup_append.1 h4).2.2 _ (List.mem_map_of_mem hq) _ (List.mem_map_of_mem hq')) hg hg'

theorem Own.split {k a rest} (h : Own H k (a :: rest)) : Own H k rest := by
  obtain ⟨h1, h2, h3, h4⟩ := h
  simp only [actCalls, TraceGo.goes] at h1 h2 h3 h4
  rw [List.map_append] at h4
  exact ⟨fun c hc => h1 c (List.mem_append_right _ hc), fun q hq => h2 q (List.mem_append_right _ hq), (List.nodup_append.1 h3).2.1,
    (List.nodup_append.1 h4).2.1⟩

theorem Own.inner {k c b fin g rest} (h : Own H k (.call c b fin g :: rest)) : Own H k g := by
  obtain ⟨h1, h2, h3, h4⟩ := h
  simp only [actCalls, actCallsIn, TraceGo.goes, goesIn, List.cons_append] at h1 h2 h3 h4
  rw [List.map_append] at h4
  exact ⟨fun c hc => h1 c (by simp [hc]), fun q hq => h2 q (by simp [hq]), (List.nodup_append.1 (List.nodup_cons.1 h3).2).1,
    (List.nodup_append.1 h4).1⟩

theorem Own.cons_nodup (fresh : Fresh H) (dist : DistinctCalls H) {k c b fin g rest xs ys} (h : Own H k (.call c b fin g :: rest))
    (h1 : ∀ d ∈ callsOf xs, d ∈ actCalls g ∨ ∃ q ∈ TraceGo.goes g, ∃ g', Desc H q.1 g' ∧ Calls H hi g' d)
    (h2 : ∀ d ∈ callsOf ys, d ∈ actCalls rest ∨ ∃ q ∈ TraceGo.goes rest, ∃ g', Desc H q.1 g' ∧ Calls H hi g' d)
    (n1 : (callsOf xs).Nodup) (n2 : (callsOf ys).Nodup) : (c :: callsOf xs ++ callsOf ys).Nodup := by
  obtain ⟨o1, o2, o3, o4⟩ := h
  simp only [actCalls, actCallsIn, TraceGo.goes, goesIn] at o1 o2 o3 o4
  rw [List.cons_append] at o3 ⊢
  have o5 := List.nodup_cons.1 o3
  refine List.nodup_cons.2 ⟨?_, List.nodup_append.2 ⟨n1, n2, ?_⟩⟩
  · intro hc
    have : c ∈ actCalls (g ++ rest) ∨ ∃ q ∈ TraceGo.goes (g ++ rest), ∃ g', Desc H q.1 g' ∧ Calls H hi g' c := by
      rw [actCalls_append, goes_append]
      rcases List.mem_append.1 hc with hc | hc
      · rcases h1 c hc with h | ⟨q, hq, r⟩
        · exact .inl (List.mem_append_left _ h)
        · exact .inr ⟨q, List.mem_append_left _ hq, r⟩
      · rcases h2 c hc with h | ⟨q, hq, r⟩
        · exact .inl (List.mem_append_right _ h)
        · exact .inr ⟨q, List.mem_append_right _ hq, r⟩
    rw [actCalls_append, goes_append] at this
    exact apart fresh dist (k := k) (cs := [c]) (cs' := actCalls g ++ actCalls rest) (gs := []) (gs' := TraceGo.goes g ++ TraceGo.goes rest)
      (by simpa using o1) (by simpa using o2) (by simpa using o3) (by simpa using o4) (.inl (by simp)) this rfl
  · intro a ha b hb
    exact apart fresh dist (k := k) (cs := actCalls g) (cs' := actCalls rest) (gs := TraceGo.goes g) (gs' := TraceGo.goes rest)
      (fun c hc => o1 c (by simp only [List.cons_append, List.mem_cons]; exact .inr hc)) o2 o5.2 o4 (h1 a ha) (h2 b hb)

theorem Own.go_nodup (fresh : Fresh H) (dist : DistinctCalls H) {k k' t rest xs ys} (h : Own H k (.go k' t :: rest))
    (h1 : ∀ d ∈ callsOf xs, ∃ g', Desc H k' g' ∧ Calls H hi g' d)
    (h2 : ∀ d ∈ callsOf ys, d ∈ actCalls rest ∨ ∃ q ∈ TraceGo.goes rest, ∃ g', Desc H q.1 g' ∧ Calls H hi g' d)
    (n1 : (callsOf xs).Nodup) (n2 : (callsOf ys).Nodup) : (callsOf xs ++ callsOf ys).Nodup := by
  obtain ⟨o1, o2, o3, o4⟩ := h
  simp only [actCalls, actCallsIn, TraceGo.goes, goesIn, List.nil_append] at o1 o2 o3 o4
  refine List.nodup_append.2 ⟨n1, n2, ?_⟩
  intro a ha b hb
  exact apart fresh dist (k := k) (cs := []) (cs' := actCalls rest) (gs := [(k', t)]) (gs' := TraceGo.goes rest)
    o1 o2 o3 o4 (.inr ⟨(k', t), by simp, h1 a ha⟩) (h2 b hb)

/-- indices of a goroutine's events are distinct, so are its calls and the goroutines it starts -/
theorem enters_nodup (dist : DistinctCalls H) (k m : Nat) : (enters (eventsOf H k m)).Nodup := by
  induction m with
  | zero => simp [enters, eventsOf, upto]
  | succ m ih =>
    rw [eventsOf_succ]
    by_cases h : (H m).1 = k
    · rw [if_pos h]
      unfold enters at ih ⊢
      rw [List.filterMap_append]
      refine List.nodup_append.2 ⟨ih, ?_, ?_⟩
      · cases (H m).2 <;> simp
      · intro a ha b hb hab
        subst hab
        obtain ⟨e, he, hx⟩ := List.mem_filterMap.1 ha
        obtain ⟨i, hi, he⟩ := mem_eventsOf.1 he
        obtain ⟨e', he', hx'⟩ := List.mem_filterMap.1 hb
        simp only [List.mem_singleton] at he'
        subst he'
        have hm : H m = (k, (H m).2) := by rw [← h]
        cases e with
        | enter c t =>
          cases hx
          generalize (H m).2 = e' at hx' hm
          cases e' with
          | enter c' t' => cases hx'; have := dist _ _ _ _ _ _ _ he hm; omega
          | _ => cases hx'
        | _ => cases hx
    · rw [if_neg h, List.append_nil]; exact ih

def spawns (l : List Ev) : List Nat := l.filterMap fun e => match e with | .spawn k _ => some k | _ => none

theorem spawns_nodup (fresh : Fresh H) (k m : Nat) : (spawns (eventsOf H k m)).Nodup := by
  induction m with
  | zero => simp [spawns, eventsOf, upto]
  | succ m ih =>
    rw [eventsOf_succ]
    by_cases h : (H m).1 = k
    · rw [if_pos h]
      unfold spawns at ih ⊢
      rw [List.filterMap_append]
      refine List.nodup_append.2 ⟨ih, ?_, ?_⟩
      · cases (H m).2 <;> simp
      · intro a ha b hb hab
        subst hab
        obtain ⟨e, he, hx⟩ := List.mem_filterMap.1 ha
        obtain ⟨i, hi, he⟩ := mem_eventsOf.1 he
        obtain ⟨e', he', hx'⟩ := List.mem_filterMap.1 hb
        simp only [List.mem_singleton] at he'
        subst he'
        have hm : H m = (k, (H m).2) := by rw [← h]
        cases e with
        | spawn c t =>
          cases hx
          generalize (H m).2 = e' at hx' hm
          cases e' with
          | spawn c' t' => cases hx'; have := spawn_unique fresh he hm; omega
          | _ => cases hx'
        | _ => cases hx
    · rw [if_neg h, List.append_nil]; exact ih

theorem whole_spawns {b l f} (h : Whole b l f) : ((goes f).map Prod.fst).Sublist (spawns l) := by
  induction h with
  | nil b => simp [goes, spawns]
  | call h1 h2 ih1 ih2 =>
    simp only [goes, goesIn, List.map_append, spawns, List.filterMap_cons, List.filterMap_append]
    exact ih1.append ih2
  | go h ih =>
    simp only [goes, goesIn, List.map_cons, spawns, List.filterMap_cons, List.singleton_append]
    exact ih.cons_cons _
  | goOutside h ih =>
    simp only [spawns, List.filterMap_cons]
    exact ih.cons _
  | done h ih => exact ih
  | other h ih => exact ih

theorem ongoing_spawns {b l f} (h : Ongoing b l f) : ((goes f).map Prod.fst).Sublist (spawns l) := by
  induction h with
  | whole h => exact whole_spawns h
  | running h h' ih =>
    simp only [goes_append, goes, goesIn, List.append_nil, List.map_append, spawns, List.filterMap_append, List.filterMap_cons]
    exact (whole_spawns h).append ih

theorem own_of (fresh : Fresh H) (dist : DistinctCalls H) {k m f} (h : Ongoing false (eventsOf H k m) f) : Own H k f := by
  refine ⟨?_, ?_, ?_, ?_⟩
  · intro c hc
    rw [ongoing_calls h] at hc
    obtain ⟨e, he, hx⟩ := List.mem_filterMap.1 hc
    obtain ⟨i, hi, he⟩ := mem_eventsOf.1 he
    cases e with
    | enter c' t => cases hx; exact ⟨i, t, he⟩
    | _ => cases hx
  · intro q hq
    obtain ⟨i, hi, he⟩ := mem_eventsOf.1 (ongoing_goes h q hq)
    exact ⟨i, he⟩
  · rw [ongoing_calls h]; exact enters_nodup dist k m
  · exact (ongoing_spawns h).nodup (spawns_nodup fresh k m)

mutual
theorem Picture.nodup (fresh : Fresh H) (dist : DistinctCalls H) : ∀ {lo k e xs}, Picture H clock b0 hi lo k e xs → (callsOf xs).Nodup
  | _, _, _, _, .mk _ _ p3 p4 => Shown.nodup fresh dist p4 (own_of fresh dist p3)
theorem Shown.nodup (fresh : Fresh H) (dist : DistinctCalls H) : ∀ {lo f xs}, Shown H clock b0 hi lo f xs → ∀ {k}, Own H k f → (callsOf xs).Nodup
  | _, _, _, .nil _, _, _ => by simp [callsOf]
  | _, _, _, .ended h1 h2, _, o => by
    have := o.cons_nodup fresh dist (Shown.only h1) (Shown.only h2) (Shown.nodup fresh dist h1 o.inner) (Shown.nodup fresh dist h2 o.split)
    simpa [callsOf, callsIn] using this
  | _, _, _, .running h1 _ _ h2, _, o => by
    have := o.cons_nodup fresh dist (Shown.only h1) (Shown.only h2) (Shown.nodup fresh dist h1 o.inner) (Shown.nodup fresh dist h2 o.split)
    simpa [callsOf, callsIn] using this
  | _, _, _, .goEnded h1 h2, _, o => by
    have := o.go_nodup fresh dist (Picture.only h1) (Shown.only h2) (Picture.nodup fresh dist h1) (Shown.nodup fresh dist h2 o.split)
    simpa [callsOf, callsIn] using this
  | _, _, _, .goRunning h1 _ _ h2, _, o => by
    have := o.go_nodup fresh dist (Picture.only h1) (Shown.only h2) (Picture.nodup fresh dist h1) (Shown.nodup fresh dist h2 o.split)
    simpa [callsOf, callsIn] using this
end

end

end Verif.Runtime.TraceGo
