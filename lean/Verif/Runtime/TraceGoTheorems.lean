/-
C76: the theorems.
-/
import Verif.Runtime.TraceGoMain

namespace Verif.Runtime.TraceGo
open Spec

theorem whole_where {b l f} (h : Whole b l f) : ∀ q ∈ goes f, ∃ pre post, l = pre ++ .spawn q.1 q.2 :: post ∧ 0 ≤ depth pre ∧ (b = true ∨ 0 < depth pre) := by
  induction h with
  | nil b => intro q hq; cases hq
  | @call b c t t' p body rest f g h1 h2 ih1 ih2 =>
    intro q hq
    simp only [goes, goesIn, List.mem_append] at hq
    rcases hq with hq | hq
    · obtain ⟨pre, post, rfl, d1, -⟩ := ih1 q hq
      exact ⟨.enter c t :: pre, post ++ .exit t' p :: rest, by simp, by simp only [depth]; omega, .inr (by simp only [depth]; omega)⟩
    · obtain ⟨pre, post, rfl, d1, d2⟩ := ih2 q hq
      have hd : depth (.enter c t :: (body ++ .exit t' p :: pre)) = depth pre := by
        simp only [depth, depth_append, whole_depth h1]; omega
      exact ⟨.enter c t :: (body ++ .exit t' p :: pre), post, by simp, by rw [hd]; exact d1, by rw [hd]; exact d2⟩
  | @go k t rest g h ih =>
    intro q hq
    simp only [goes, goesIn, List.mem_append, List.mem_singleton] at hq
    rcases hq with rfl | hq
    · exact ⟨[], rest, rfl, by simp [depth], .inl rfl⟩
    · obtain ⟨pre, post, rfl, d1, -⟩ := ih q hq
      exact ⟨.spawn k t :: pre, post, rfl, by simpa [depth] using d1, .inl rfl⟩
  | @goOutside k t rest g h ih =>
    intro q hq
    obtain ⟨pre, post, rfl, d1, d2⟩ := ih q hq
    exact ⟨.spawn k t :: pre, post, rfl, by simpa [depth] using d1, by simpa [depth] using d2⟩
  | @done b t rest g h ih =>
    intro q hq
    obtain ⟨pre, post, rfl, d1, d2⟩ := ih q hq
    exact ⟨.done t :: pre, post, rfl, by simpa [depth] using d1, by simpa [depth] using d2⟩
  | @other b rest g h ih =>
    intro q hq
    obtain ⟨pre, post, rfl, d1, d2⟩ := ih q hq
    exact ⟨.other :: pre, post, rfl, by simpa [depth] using d1, by simpa [depth] using d2⟩

theorem ongoing_where {b l f} (h : Ongoing b l f) :
    ∀ q ∈ goes f, ∃ pre post, l = pre ++ .spawn q.1 q.2 :: post ∧ 0 ≤ depth pre ∧ (b = true ∨ 0 < depth pre) := by
  induction h with
  | whole h => exact whole_where h
  | @running b c t l f l' g h h' ih =>
    intro q hq
    simp only [goes_append, goes, goesIn, List.append_nil, List.mem_append] at hq
    rcases hq with hq | hq
    · obtain ⟨pre, post, rfl, d1, d2⟩ := whole_where h q hq
      exact ⟨pre, post ++ .enter c t :: l', by simp, d1, d2⟩
    · obtain ⟨pre, post, rfl, d1, d2⟩ := ih q hq
      have hd : depth (l ++ .enter c t :: pre) = depth pre + 1 := by
        simp only [depth_append, depth, whole_depth h]; omega
      exact ⟨l ++ .enter c t :: pre, post, by simp, by omega, .inr (by omega)⟩

theorem eventsOf_index {H : Nat → Nat × Ev} {k m : Nat} {e : Ev} : ∀ {pre post}, eventsOf H k m = pre ++ e :: post →
    ∃ i, i < m ∧ H i = (k, e) ∧ eventsOf H k i = pre := by
  induction m with
  | zero => intro pre post h; simp [eventsOf, upto] at h
  | succ m ih =>
    intro pre post h
    rw [eventsOf_succ] at h
    by_cases hm : (H m).1 = k
    · rw [if_pos hm] at h
      rcases List.eq_nil_or_concat post with rfl | ⟨post', x, rfl⟩
      · obtain ⟨h1, h2⟩ := List.append_inj' h rfl
        exact ⟨m, by omega, by rw [← hm]; cases h2; rfl, h1⟩
      · rw [List.concat_eq_append, ← List.cons_append, ← List.append_assoc] at h
        obtain ⟨h1, -⟩ := List.append_inj' h rfl
        obtain ⟨i, hi, r⟩ := ih h1
        exact ⟨i, by omega, r⟩
    · rw [if_neg hm, List.append_nil] at h
      obtain ⟨i, hi, r⟩ := ih h
      exact ⟨i, by omega, r⟩

section
variable {H : Nat → Nat × Ev} {clock : Nat → Int} {b0 : Int} {hi : Nat}

theorem goes_starts {k m f} (h : Ongoing false (eventsOf H k m) f) (q) (hq : q ∈ goes f) : Starts H m k q.1 := by
  obtain ⟨pre, post, he, -, hd⟩ := ongoing_where h q hq
  obtain ⟨i, hi, h1, h2⟩ := eventsOf_index he
  rcases hd with hd | hd
  · cases hd
  · exact ⟨i, q.2, hi, h1, by rw [h2]; exact hd⟩

theorem Starts.mono {m m' g k} (h : Starts H m g k) (hm : m ≤ m') : Starts H m' g k := by
  obtain ⟨i, t, h1, h2⟩ := h
  exact ⟨i, t, by omega, h2⟩

mutual
theorem Picture.members : ∀ {lo k e xs}, Picture H clock b0 hi lo k e xs → Member H hi k → ∀ c ∈ callsOf xs, ∃ g, Member H hi g ∧ Calls H hi g c
  | _, k, _, _, @Picture.mk _ _ _ _ lo m _ f xs p1 p2 p3 p4 => by
    intro hk c hc
    refine Shown.members p4 (fun q hq => .started hk (Starts.mono (goes_starts p3 q hq) p2)) ?_ c hc
    intro c hc
    rw [ongoing_calls p3] at hc
    obtain ⟨e, he, hx⟩ := List.mem_filterMap.1 hc
    obtain ⟨i, hi', he⟩ := mem_eventsOf.1 he
    cases e with
    | enter c' t => cases hx; exact ⟨k, hk, i, t, by omega, he⟩
    | _ => cases hx
theorem Shown.members : ∀ {lo f xs}, Shown H clock b0 hi lo f xs → (∀ q ∈ goes f, Member H hi q.1) →
    (∀ c ∈ actCalls f, ∃ g, Member H hi g ∧ Calls H hi g c) → ∀ c ∈ callsOf xs, ∃ g, Member H hi g ∧ Calls H hi g c
  | _, _, _, .nil _ => by intro _ _ c hc; cases hc
  | _, _, _, .ended h1 h2 => by
    intro hg hc c hx
    simp only [callsOf, callsIn, Option.toList, List.singleton_append, List.mem_cons, List.mem_append] at hx
    simp only [actCalls, actCallsIn, goes, goesIn, List.cons_append, List.mem_cons, List.mem_append] at hc hg
    rcases hx with (rfl | hx) | hx
    · exact hc _ (.inl rfl)
    · exact Shown.members h1 (fun q hq => hg q (.inl hq)) (fun d hd => hc d (.inr (.inl hd))) c hx
    · exact Shown.members h2 (fun q hq => hg q (.inr hq)) (fun d hd => hc d (.inr (.inr hd))) c hx
  | _, _, _, .running h1 _ _ h2 => by
    intro hg hc c hx
    simp only [callsOf, callsIn, Option.toList, List.singleton_append, List.mem_cons, List.mem_append] at hx
    simp only [actCalls, actCallsIn, goes, goesIn, List.cons_append, List.mem_cons, List.mem_append] at hc hg
    rcases hx with (rfl | hx) | hx
    · exact hc _ (.inl rfl)
    · exact Shown.members h1 (fun q hq => hg q (.inl hq)) (fun d hd => hc d (.inr (.inl hd))) c hx
    · exact Shown.members h2 (fun q hq => hg q (.inr hq)) (fun d hd => hc d (.inr (.inr hd))) c hx
  | _, _, _, @Shown.goEnded _ _ _ _ lo k t _ _ _ _ h1 h2 => by
    intro hg hc c hx
    simp only [callsOf, callsIn, Option.toList, List.nil_append, List.mem_append] at hx
    simp only [actCalls, actCallsIn, goes, goesIn, List.nil_append, List.mem_append, List.mem_singleton] at hc hg
    rcases hx with hx | hx
    · exact Picture.members h1 (hg (k, t) (.inl rfl)) c hx
    · exact Shown.members h2 (fun q hq => hg q (.inr hq)) hc c hx
  | _, _, _, @Shown.goRunning _ _ _ _ lo k t _ _ _ _ h1 _ _ h2 => by
    intro hg hc c hx
    simp only [callsOf, callsIn, Option.toList, List.nil_append, List.mem_append] at hx
    simp only [actCalls, actCallsIn, goes, goesIn, List.nil_append, List.mem_append, List.mem_singleton] at hc hg
    rcases hx with hx | hx
    · exact Picture.members h1 (hg (k, t) (.inl rfl)) c hx
    · exact Shown.members h2 (fun q hq => hg q (.inr hq)) hc c hx
end
end

/-- C76. Every traced call begun before the export, on any goroutine of the trace, is in it; -/
theorem C76_every_call_is_shown_partial (H : Nat → Nat × Ev) (begin : Int) (clock : Nat → Int) (sched : Nat → Nat) (fuel start : Nat)
    (fresh : Fresh H) (bal : Balanced H) (xs : List X) (a : At)
    (h : exportTrace ⟨World.after false begin H, clock, sched⟩ fuel start = some (xs, a))
    (g c : Nat) (hg : Member H start g) (hc : Calls H start g c) : c ∈ callsOf xs := by
  obtain ⟨e, hp⟩ := C76_export_is_a_picture_partial H begin clock sched fuel start fresh bal xs a h
  obtain ⟨lo, e', ys, h1, h2, h3⟩ := member_shown hp hg
  obtain ⟨i, t, hi, he⟩ := hc
  exact h3 c (Picture.has h2 ⟨i, t, by omega, he⟩)

/-- and only calls of goroutines of the trace, begun before the export ended; -/
theorem C76_only_calls_of_the_trace_partial (H : Nat → Nat × Ev) (begin : Int) (clock : Nat → Int) (sched : Nat → Nat) (fuel start : Nat)
    (fresh : Fresh H) (bal : Balanced H) (xs : List X) (a : At)
    (h : exportTrace ⟨World.after false begin H, clock, sched⟩ fuel start = some (xs, a))
    (c : Nat) (hc : c ∈ callsOf xs) : ∃ g, Member H a.time g ∧ Calls H a.time g c := by
  obtain ⟨e, hp⟩ := C76_export_is_a_picture_partial H begin clock sched fuel start fresh bal xs a h
  exact Picture.members hp .root c hc

/-- each once. -/
theorem C76_each_call_once_partial (H : Nat → Nat × Ev) (begin : Int) (clock : Nat → Int) (sched : Nat → Nat) (fuel start : Nat)
    (fresh : Fresh H) (bal : Balanced H) (dist : DistinctCalls H) (xs : List X) (a : At)
    (h : exportTrace ⟨World.after false begin H, clock, sched⟩ fuel start = some (xs, a)) : (callsOf xs).Nodup := by
  obtain ⟨e, hp⟩ := C76_export_is_a_picture_partial H begin clock sched fuel start fresh bal xs a h
  exact Picture.nodup fresh dist hp

/-! The export ends if goroutines stop being started. -/

section
variable {H : Nat → Nat × Ev} {b0 : Int}

theorem known_of_some (m : Nat) : ∀ {k s}, World.after false b0 H m k = some s → ∃ t, Known H b0 k t m := by
  induction m with
  | zero =>
    intro k s h
    simp only [World.after, World.start] at h
    by_cases hk : k = 0
    · exact ⟨b0, .inl ⟨hk, rfl⟩⟩
    · rw [if_neg hk] at h; cases h
  | succ m ih =>
    intro k s h
    rw [World.after, World.step] at h
    have old : ∀ {s}, World.after false b0 H m k = some s → ∃ t, Known H b0 k t (m + 1) := by
      intro s hs
      obtain ⟨t, ht⟩ := ih hs
      exact ⟨t, ht.mono (by omega)⟩
    cases hw : World.after false b0 H m (H m).1 with
    | none => rw [hw] at h; exact old h
    | some s' =>
      rw [hw] at h
      simp only at h
      cases he : (H m).2 with
      | spawn k' t' =>
        rw [he] at h
        simp only [Bool.false_eq_true, if_false, World.set] at h
        by_cases h1 : k = k'
        · subst h1
          refine ⟨t', .inr ⟨m, (H m).1, by omega, ?_, by rw [hw]; rfl⟩⟩
          rw [← he]
        · rw [if_neg h1] at h
          by_cases h2 : k = (H m).1
          · exact old (by rw [h2]; exact hw)
          · rw [if_neg h2] at h; exact old h
      | _ =>
        rw [he] at h
        simp only [World.set] at h
        by_cases h2 : k = (H m).1
        · exact old (by rw [h2]; exact hw)
        · rw [if_neg h2] at h; exact old h

mutual
theorem exportEntry_total {E : Env} {hop : Hop} {t begin off : Int} : ∀ {x a}, Copy t x a → (∀ q ∈ goesIn a, ∀ b p, hop q.1 b p ≠ none) →
    ∀ p, exportEntry E hop begin off p x ≠ none
  | .mk n sid ents, _, .ended h1 h2 h3 h4 h5 h6 h7, hh, p => by
    rw [exportEntry]
    cases hx : exportEntries E hop begin off p ents with
    | none => exact absurd hx (exportEntries_total h7 hh p)
    | some r => simp [h1, h4]
  | .mk n sid ents, _, .running h1 h2 h3 h4 h5 h6 h7, hh, p => by
    rw [exportEntry]
    cases hx : exportEntries E hop begin off p ents with
    | none => exact absurd hx (exportEntries_total h7 hh p)
    | some r => simp [h1, h4]
  | .mk n _ _, _, @Copy.go _ _ k u h1 h2 h3, hh, p => by
    rw [exportEntry, exportEntries]
    simp only [h1, Option.isSome_some, Bool.and_self, if_true, Option.getD_some]
    cases hv : hop k (n.beginNs + off) p with
    | none => exact absurd hv (hh (k, u) (by simp [goesIn]) _ _)
    | some r =>
      obtain ⟨r, a⟩ := r
      cases r <;> simp
theorem exportEntries_total {E : Env} {hop : Hop} {t begin off : Int} : ∀ {ents f}, Copies t ents f → (∀ q ∈ goes f, ∀ b p, hop q.1 b p ≠ none) →
    ∀ p, exportEntries E hop begin off p ents ≠ none
  | _, _, .nil, _, p => by simp [exportEntries]
  | x :: ents, _, .cons h1 h2, hh, p => by
    rw [exportEntries]
    cases hx : exportEntry E hop begin off p x with
    | none => exact absurd hx (exportEntry_total h1 (fun q hq => hh q (List.mem_append_left _ hq)) p)
    | some r =>
      obtain ⟨y, p1⟩ := r
      simp only
      cases hy : exportEntries E hop begin off p1 ents with
      | none => exact absurd hy (exportEntries_total h2 (fun q hq => hh q (List.mem_append_right _ hq)) p1)
      | some r => simp
end

theorem visit_total (fresh : Fresh H) (brack : Bracketed H) {E : Env} (hE : E.world = World.after false b0 H) {N : Nat}
    (stop : ∀ m g k t, N ≤ m → H m ≠ (g, .spawn k t)) : ∀ fuel i g k t, H i = (g, .spawn k t) → N ≤ fuel + i → ∀ b a, visit E fuel k b a ≠ none
  | 0, i, g, k, t, h, hN, b, a => absurd h (stop i g k t (by omega))
  | fuel + 1, i, g, k, t, h, hN, b, a => by
    rw [visit, hE]
    simp only
    cases hw : World.after false b0 H (a.next E.sched).time k with
    | none => simp
    | some s =>
      obtain ⟨t', ht⟩ := known_of_some _ hw
      rw [ht.after fresh] at hw
      cases hw
      obtain ⟨f, hf⟩ := brack k (a.next E.sched).time
      simp only
      cases hx : exportEntries E (visit E fuel) (stackAt H k t' (a.next E.sched).time).stk.begin b (a.next E.sched)
          (stackAt H k t' (a.next E.sched).time).roots with
      | none =>
        refine absurd hx (exportEntries_total (snapshot_copies t' _ hf) ?_ _)
        intro q hq b p
        obtain ⟨j, hj, he⟩ := mem_eventsOf.1 (ongoing_goes hf q hq)
        have := later fresh h he
        exact visit_total fresh brack hE stop fuel j k q.1 q.2 he (by omega) b p
      | some r =>
        simp only
        cases (stackAt H k t' (a.next E.sched).time).ended <;> simp
end

/-- C76. If from some moment on no goroutine is started, the export ends, whatever the schedule. -/
theorem C76_export_ends_partial (H : Nat → Nat × Ev) (begin : Int) (clock : Nat → Int) (sched : Nat → Nat) (start N : Nat)
    (fresh : Fresh H) (bal : Balanced H) (stop : ∀ m g k t, N ≤ m → H m ≠ (g, .spawn k t)) :
    exportTrace ⟨World.after false begin H, clock, sched⟩ N start ≠ none := by
  have brack := Balanced.bracketed bal
  unfold exportTrace
  simp only [after_root fresh]
  obtain ⟨f, hf⟩ := brack 0 (At.next ⟨0, start⟩ sched).time
  refine exportEntries_total (snapshot_copies begin _ hf) ?_ _
  intro q hq b p
  obtain ⟨j, hj, he⟩ := mem_eventsOf.1 (ongoing_goes hf q hq)
  exact visit_total fresh brack rfl stop N j 0 q.1 q.2 he (by omega) b p

end Verif.Runtime.TraceGo
