/-
**C91**: instrumentation and the start of a package.
-/
import Verif.Instrument.InitOrderProps

namespace Verif.Instrument.InitOrder

theorem first_ready {α} {P : α → Prop} {l : List α} (h : ∃ x ∈ l, P x) : ∃ a q b, l = a ++ q :: b ∧ (∀ u ∈ a, ¬ P u) ∧ P q := by
  classical
  induction l with
  | nil => obtain ⟨x, hx, _⟩ := h; cases hx
  | cons y l ih =>
    by_cases hy : P y
    · exact ⟨[], y, l, rfl, (by intro u hu; cases hu), hy⟩
    · obtain ⟨x, hx, hp⟩ := h
      have : ∃ x ∈ l, P x := by
        rcases List.mem_cons.1 hx with rfl | hx
        · exact absurd hp hy
        · exact ⟨x, hx, hp⟩
      obtain ⟨a, q, b, rfl, h1, h2⟩ := ih this
      refine ⟨y :: a, q, b, rfl, ?_, h2⟩
      intro u hu
      rcases List.mem_cons.1 hu with rfl | hu
      · exact hy
      · exact h1 u hu

theorem split_unique {α} {a b a' b' : List α} {v : α} (h : a ++ v :: b = a' ++ v :: b') (hn : (a ++ v :: b).Nodup) : a = a' ∧ b = b' := by
  induction a generalizing a' with
  | nil =>
    cases a' with
    | nil => exact ⟨rfl, (List.cons.inj h).2⟩
    | cons x a' =>
      obtain ⟨h1, h2⟩ := List.cons.inj h
      rw [List.nil_append] at hn
      have := (List.nodup_cons.1 hn).1
      rw [h2] at this
      exact absurd (by simp) this
  | cons x a ih =>
    cases a' with
    | nil =>
      obtain ⟨h1, h2⟩ := List.cons.inj h
      rw [List.cons_append] at hn
      have := (List.nodup_cons.1 hn).1
      rw [h1] at this
      exact absurd (by simp) this
    | cons y a' =>
      obtain ⟨h1, h2⟩ := List.cons.inj h
      obtain ⟨e1, e2⟩ := ih h2 (List.nodup_cons.1 hn).2
      exact ⟨by rw [h1, e1], e2⟩

theorem stub_ready (p : Pkg) (i : Nat) (k : Stub) (D : List Name) : Ready (Depends p.refs') D (.stub i k) := by
  intro w hw
  obtain ⟨x, hx, _⟩ := hw.1.first
  cases hx

/-- What an added variable waits for. -/
theorem added_waits {p : Pkg} {g w : Name} (hg : g.user = false) (hv : g.isVar = true) (h : Depends p.refs' g w) :
    (∃ i k, w = .stub i k ∧ w ∈ p.refs' g) ∨ (∃ v, g = .infoVar v ∧ (w = .var v ∨ Depends p.refs' (.var v) w)) := by
  obtain ⟨hr, hw⟩ := h
  obtain ⟨x, hx, hxw⟩ := hr.first
  have stub : ∀ i k, x = .stub i k → (∃ i k, w = .stub i k ∧ w ∈ p.refs' g) := by
    intro i k he
    subst he
    rcases hxw with rfl | h
    · exact ⟨i, k, rfl, hx⟩
    · obtain ⟨y, hy, _⟩ := h.first; cases hy
  cases g with
  | var v => cases hg
  | func f => cases hv
  | getter v a => cases hv
  | stub i k => cases hx
  | infoVar v =>
    have hx0 := hx
    rcases List.mem_cons.1 hx with h | hx
    · exact .inl (stub _ _ h)
    rcases List.mem_cons.1 hx with h | hx
    · exact .inl (stub _ _ h)
    have := List.mem_singleton.1 hx
    subst this
    refine .inr ⟨v, rfl, ?_⟩
    rcases hxw with h | h
    · exact .inl h.symm
    · exact .inr ⟨h, hw⟩
  | infoFunc f =>
    rcases List.mem_cons.1 hx with h | hx
    · exact .inl (stub _ _ h)
    · exact .inl (stub _ _ (List.mem_singleton.1 hx))
  | infoIntf t =>
    rcases List.mem_cons.1 hx with h | hx
    · exact .inl (stub _ _ h)
    · exact .inl (stub _ _ (List.mem_singleton.1 hx))

/-- The stubs that added variables refer to are declared. -/
theorem added_stub {p : Pkg} (hd : p.Declared) {g : Name} (hg : g ∈ p.order') (hu : g.user = false) {i k} (h : Name.stub i k ∈ p.refs' g) :
    Name.stub i k ∈ p.order' := by
  have hfile : ∃ i ds, p.files[i]? = some ds ∧ g ∈ p.added i ds := by
    unfold Pkg.order' at hg
    obtain ⟨l, hl, hm⟩ := List.mem_flatten.1 hg
    obtain ⟨⟨ds, i⟩, hx, rfl⟩ := List.mem_map.1 hl
    refine ⟨i, ds, List.mem_zipIdx_iff_getElem?.1 hx, ?_⟩
    unfold Pkg.fileOrder at hm
    rcases List.mem_append.1 hm with hm | hm
    · rcases List.mem_append.1 hm with hm | hm
      · obtain ⟨v, _, rfl⟩ := List.mem_map.1 hm; cases hu
      · exact hm
    · obtain ⟨v, _, rfl⟩ := List.mem_map.1 hm; cases hu
  obtain ⟨j, ds, h1, h2⟩ := hfile
  have hinfo : p.infos ds ≠ [] := by
    unfold Pkg.added at h2
    split at h2
    · cases h2
    · assumption
  have hin : g ∈ p.infos ds := by
    unfold Pkg.added at h2
    rw [if_neg hinfo] at h2
    rcases List.mem_append.1 h2 with h2 | h2
    · obtain ⟨_, _, rfl⟩ := List.mem_map.1 h2; cases h
    · exact h2
  have here : Name.stub j k ∈ p.order' := by
    refine inFile_order (i := j) ⟨ds, h1, ?_⟩
    unfold Pkg.added
    rw [if_neg hinfo]
    refine List.mem_append_left _ (List.mem_map.2 ⟨k, ?_, rfl⟩)
    cases k <;> simp
  unfold Pkg.infos at hin
  rcases List.mem_append.1 hin with hin | hin
  · rcases List.mem_append.1 hin with hin | hin
    · obtain ⟨v, hv, rfl⟩ := List.mem_map.1 hin
      have hv := (List.mem_filter.1 hv).2
      have : i = p.homeVar v := by simp [Pkg.refs'] at h; rcases h with h | h <;> exact h.1
      subst this
      exact inFile_order (stub_in hd k (.inr ⟨v, hv, rfl⟩))
    · obtain ⟨d, hm, hd'⟩ := List.mem_filterMap.1 hin
      split at hd'
      · rename_i f
        split at hd'
        · rename_i ht
          cases hd'
          have : i = p.homeFunc f := by simp [Pkg.refs'] at h; rcases h with h | h <;> exact h.1
          subst this
          exact inFile_order (stub_in hd k (.inl ⟨f, ht, rfl⟩))
        · cases hd'
      · cases hd'
  · obtain ⟨d, hm, hd'⟩ := List.mem_filterMap.1 hin
    split at hd'
    · rename_i t
      cases hd'
      have : i = j := by
        rw [← hd.intfs j ds t h1 hm]
        simp [Pkg.refs'] at h; rcases h with h | h <;> exact h.1
      subst this
      exact here
    · cases hd'

theorem order_isVar {p : Pkg} {x : Name} (h : x ∈ p.order') : x.isVar = true := by
  unfold Pkg.order' at h
  obtain ⟨l, hl, hm⟩ := List.mem_flatten.1 h
  obtain ⟨⟨ds, i⟩, _, rfl⟩ := List.mem_map.1 hl
  unfold Pkg.fileOrder Pkg.added Pkg.infos at hm
  rcases List.mem_append.1 hm with hm | hm
  · rcases List.mem_append.1 hm with hm | hm
    · obtain ⟨_, _, rfl⟩ := List.mem_map.1 hm; rfl
    · split at hm
      · cases hm
      · rcases List.mem_append.1 hm with hm | hm
        · obtain ⟨_, _, rfl⟩ := List.mem_map.1 hm; rfl
        · rcases List.mem_append.1 hm with hm | hm
          · rcases List.mem_append.1 hm with hm | hm
            · obtain ⟨_, _, rfl⟩ := List.mem_map.1 hm; rfl
            · obtain ⟨d, _, hd⟩ := List.mem_filterMap.1 hm
              split at hd
              · split at hd
                · cases hd; rfl
                · cases hd
              · cases hd
          · obtain ⟨d, _, hd⟩ := List.mem_filterMap.1 hm
            split at hd
            · cases hd; rfl
            · cases hd
  · obtain ⟨_, _, rfl⟩ := List.mem_map.1 hm; rfl

/-- How far the two have got: `R`, `D` in the source, `R'`, `D'` when instrumented. -/
structure Sim (p : Pkg) (R D R' D' : List Name) : Prop where
  rest : R'.filter Name.user = R
  sub : R'.Sublist p.order'
  all : ∀ x ∈ p.order', x ∈ R' ∨ x ∈ D'
  closed : ∀ a ∈ D', ∀ b, Depends p.refs' a b → b ∈ D'
  done : ∀ v, Name.var v ∈ D' ↔ Name.var v ∈ D

theorem Sim.added_ready {p : Pkg} (hd : p.Declared) {R D R' D'} (h : Sim p R D R' D') {g : Name} (hg : g ∈ R') (hu : g.user = false)
    (hv : ∀ v, g = .infoVar v → Name.var v ∈ D') :
    ∃ g' ∈ R', g'.user = false ∧ Ready (Depends p.refs') D' g' ∧ (g' = g ∨ g' ∈ p.refs' g) := by
  classical
  have hgo := h.sub.subset hg
  by_cases hr : Ready (Depends p.refs') D' g
  · exact ⟨g, hg, hu, hr, .inl rfl⟩
  · unfold Ready at hr
    rw [Classical.not_forall] at hr
    obtain ⟨w, hw⟩ := hr
    rw [Classical.not_imp] at hw
    obtain ⟨hw, hnd⟩ := hw
    rcases added_waits hu (order_isVar hgo) hw with ⟨i, k, rfl, hm⟩ | ⟨v, rfl, hw2⟩
    · have := added_stub hd hgo hu hm
      rcases h.all _ this with h1 | h1
      · exact ⟨_, h1, rfl, stub_ready p i k D', .inr hm⟩
      · exact absurd h1 hnd
    · have hvd := hv v rfl
      rcases hw2 with rfl | hw2
      · exact absurd hvd hnd
      · exact absurd (h.closed _ hvd _ hw2) hnd

theorem Sim.step {p : Pkg} {R D R' D'} (h : Sim p R D R' D') {a q b} (he : R' = a ++ q :: b) (hq : Ready (Depends p.refs') D' q) :
    (q.user = false → Sim p R D (a ++ b) (q :: D')) ∧
    ∀ v a0 b0, q = .var v → R = a0 ++ q :: b0 → R.Nodup → Sim p (a0 ++ b0) (q :: D) (a ++ b) (q :: D') := by
  have hsub : (a ++ b).Sublist p.order' := by
    refine List.Sublist.trans ?_ h.sub
    rw [he]
    exact (List.Sublist.refl a).append (List.sublist_cons_self q b)
  have hall : ∀ x ∈ p.order', x ∈ a ++ b ∨ x ∈ q :: D' := by
    intro x hx
    rcases h.all x hx with hx | hx
    · rw [he] at hx
      rcases List.mem_append.1 hx with hx | hx
      · exact .inl (List.mem_append_left _ hx)
      · rcases List.mem_cons.1 hx with rfl | hx
        · exact .inr List.mem_cons_self
        · exact .inl (List.mem_append_right _ hx)
    · exact .inr (List.mem_cons_of_mem _ hx)
  have hclosed : ∀ x ∈ q :: D', ∀ y, Depends p.refs' x y → y ∈ q :: D' := by
    intro x hx y hy
    rcases List.mem_cons.1 hx with rfl | hx
    · exact List.mem_cons_of_mem _ (hq y hy)
    · exact List.mem_cons_of_mem _ (h.closed x hx y hy)
  constructor
  · intro hu
    refine ⟨?_, hsub, hall, hclosed, ?_⟩
    · rw [← h.rest, he, List.filter_append, List.filter_append, List.filter_cons, if_neg (by rw [hu]; exact Bool.false_ne_true)]
    · intro v
      rw [List.mem_cons, h.done]
      constructor
      · rintro (rfl | h)
        · cases hu
        · exact h
      · exact .inr
  · intro v a0 b0 hqv hR hn
    refine ⟨?_, hsub, hall, hclosed, ?_⟩
    · have := h.rest
      rw [he, List.filter_append, List.filter_cons, if_pos (by rw [hqv]; rfl), hR] at this
      obtain ⟨h1, h2⟩ := split_unique this (by rw [this, ← hR]; exact hn)
      rw [List.filter_append, h1, h2]
    · intro w
      rw [List.mem_cons, List.mem_cons, h.done]

/-- The instrumented package initialises the user's variables in the order of the source. -/
theorem simulate {p : Pkg} (hd : p.Declared) (ht : p.Tidy) {n : Nat} {R D l R' D' : List Name} (hn : R'.length = n)
    (hi : Inits (Depends p.refs) R D l) (hs : Sim p R D R' D') : ∃ l', Inits (Depends p.refs') R' D' l' ∧ l'.filter Name.user = l := by
  induction n generalizing R D l R' D' with
  | zero =>
    have : R' = [] := List.length_eq_zero_iff.1 hn
    subst this
    have hR := hs.rest
    simp only [List.filter_nil] at hR
    cases hi with
    | nil => exact ⟨[], .nil, rfl⟩
    | next => exact absurd hR.symm (by simp)
  | succ n ih =>
    have hlen : ∀ {a q b}, R' = a ++ q :: b → (a ++ b).length = n := by
      intro a q b he
      rw [he] at hn
      simp at hn ⊢
      omega
    have hnd : R'.Nodup := hs.sub.nodup hd.nodup
    -- taking an added variable
    have takeAdded : ∀ {a q b}, R' = a ++ q :: b → (∀ u ∈ a, ¬ Ready (Depends p.refs') D' u) → Ready (Depends p.refs') D' q → q.user = false →
        ∃ l', Inits (Depends p.refs') R' D' l' ∧ l'.filter Name.user = l := by
      intro a q b he ha hq hu
      obtain ⟨l', h1, h2⟩ := ih (hlen he) hi ((hs.step he hq).1 hu)
      refine ⟨q :: l', he ▸ .next ha hq h1, ?_⟩
      rw [List.filter_cons, if_neg (by rw [hu]; exact Bool.false_ne_true), h2]
    cases hi with
    | nil =>
      -- only added variables are left
      obtain ⟨x, R'', rfl⟩ : ∃ x R'', R' = x :: R'' := by
        cases R' with
        | nil => cases hn
        | cons x R'' => exact ⟨x, R'', rfl⟩
      have hnone : ∀ y ∈ x :: R'', y.user = false := by
        intro y hy
        have := List.filter_eq_nil_iff.1 hs.rest y hy
        simpa using this
      have hdone : ∀ v, Name.var v ∈ p.order' → Name.var v ∈ D' := by
        intro v hv
        rcases hs.all _ hv with h | h
        · have := hnone _ h; cases this
        · exact h
      have hx : ∃ y ∈ x :: R'', Ready (Depends p.refs') D' y := by
        obtain ⟨g, h1, _, h2, _⟩ := hs.added_ready hd (List.mem_cons_self (a := x) (l := R'')) (hnone x List.mem_cons_self) (by
          intro v hv
          subst hv
          refine hdone v ?_
          have hmem := hs.sub.subset (List.mem_cons_self (a := Name.infoVar v) (l := R''))
          -- an info is declared in the file of its variable
          unfold Pkg.order' at hmem ⊢
          obtain ⟨l, hl, hm⟩ := List.mem_flatten.1 hmem
          refine List.mem_flatten.2 ⟨l, hl, ?_⟩
          obtain ⟨⟨ds, i⟩, _, rfl⟩ := List.mem_map.1 hl
          have hin : v ∈ names ds := by
            unfold Pkg.fileOrder Pkg.added Pkg.infos at hm
            simp only [List.mem_append, List.mem_map] at hm
            rcases hm with (⟨_, _, h⟩ | hm) | ⟨_, _, h⟩
            · cases h
            · split at hm
              · cases hm
              · simp only [List.mem_append, List.mem_map] at hm
                rcases hm with ⟨_, _, h⟩ | (⟨w, hw, h⟩ | hm) | hm
                · cases h
                · cases h; exact (List.mem_filter.1 hw).1
                · obtain ⟨d, _, hd⟩ := List.mem_filterMap.1 hm
                  split at hd
                  · split at hd
                    · cases hd
                    · cases hd
                  · cases hd
                · obtain ⟨d, _, hd⟩ := List.mem_filterMap.1 hm
                  split at hd
                  · cases hd
                  · cases hd
            · cases h
          have : Name.var v ∈ (p.fileOrder i ds).filter Name.user := by
            rw [file_user]
            exact List.mem_map.2 ⟨v, hin, rfl⟩
          exact (List.mem_filter.1 this).1)
        exact ⟨g, h1, h2⟩
      obtain ⟨a, q, b, he, ha, hq⟩ := first_ready hx
      exact takeAdded he ha hq (hnone q (by rw [he]; simp))
    | @next a0 v b0 D l ha0 hv hrest =>
      have hRn : (a0 ++ v :: b0).Nodup := by rw [← hs.rest]; exact hnd.filter _
      have hvR : v ∈ R' ∧ v.user = true := by
        have : v ∈ R'.filter Name.user := by rw [hs.rest]; simp
        exact List.mem_filter.1 this
      obtain ⟨w, rfl⟩ : ∃ w, v = .var w := by
        have := hvR.2
        cases v <;> first | exact ⟨_, rfl⟩ | cases this
      -- something that `w` needs is ready, or `w` itself
      have hex : ∃ y ∈ R', Ready (Depends p.refs') D' y ∧ (y = .var w ∨ ∃ i, p.Uses w i ∧ InFile p i y) := by
        classical
        by_cases hr : Ready (Depends p.refs') D' (.var w)
        · exact ⟨_, hvR.1, hr, .inl rfl⟩
        · unfold Ready at hr
          rw [Classical.not_forall] at hr
          obtain ⟨x, hx⟩ := hr
          rw [Classical.not_imp] at hx
          obtain ⟨hx, hxn⟩ := hx
          have infile : ∀ y, Reach p.refs' (.var w) y → y.user = false → y.isVar = true → ∃ i, p.Uses w i ∧ InFile p i y := by
            intro y hy hu hv
            have := needed hy
            cases y with
            | var _ => cases hu
            | func _ => cases hv
            | getter _ _ => cases hv
            | stub i k => exact ⟨i, this.1, stub_in hd k this.2⟩
            | infoVar u => exact ⟨_, this.2, infoVar_in hd this.1⟩
            | infoFunc f => exact ⟨_, this.2, infoFunc_in hd this.1⟩
            | infoIntf t => exact absurd this id
          by_cases hxu : x.user = true
          · obtain ⟨u, rfl⟩ : ∃ u, x = .var u := by cases x <;> first | exact ⟨_, rfl⟩ | cases hxu
            exact absurd ((hs.done u).2 (hv _ (depends_iff.1 hx))) hxn
          · have hxu : x.user = false := by simpa using hxu
            obtain ⟨i, hi1, hi2⟩ := infile x hx.1 hxu hx.2
            have hxR : x ∈ R' := by
              rcases hs.all _ (inFile_order hi2) with h | h
              · exact h
              · exact absurd h hxn
            obtain ⟨g, h1, h2, h3, h4⟩ := hs.added_ready hd hxR hxu (by
              intro u hu
              subst hu
              have : Depends p.refs' (.var w) (.var u) := ⟨.more hx.1 (by simp [Pkg.refs']), rfl⟩
              exact (hs.done u).2 (hv _ (depends_iff.1 this)))
            have hg : Reach p.refs' (.var w) g := by
              rcases h4 with rfl | h4
              · exact hx.1
              · exact .more hx.1 h4
            exact ⟨g, h1, h3, .inr (infile g hg h2 (order_isVar (hs.sub.subset h1)))⟩
      obtain ⟨a, q, b, he, ha, hq⟩ := first_ready (P := Ready (Depends p.refs') D') (by
        obtain ⟨y, h1, h2, _⟩ := hex; exact ⟨y, h1, h2⟩)
      by_cases hqu : q.user = true
      · obtain ⟨u, rfl⟩ : ∃ u, q = .var u := by cases q <;> first | exact ⟨_, rfl⟩ | cases hqu
        -- it is `w`
        have huw : u = w := by
          refine Classical.byContradiction fun hne => ?_
          have hur : Ready (Depends p.refs) D (.var u) := by
            intro x hx
            obtain ⟨z, rfl⟩ := depends_user hx
            exact (hs.done z).1 (hq _ (depends_iff.2 hx))
          have huR : Name.var u ∈ a0 ++ .var w :: b0 := by
            rw [← hs.rest, he]
            simp [Name.user]
          have hub : Name.var u ∈ b0 := by
            rcases List.mem_append.1 huR with h | h
            · exact absurd hur (ha0 _ h)
            · rcases List.mem_cons.1 h with h | h
              · cases h; exact absurd rfl hne
              · exact h
          have hbefore : [Name.var w, .var u].Sublist (a0 ++ .var w :: b0) :=
            List.Sublist.trans ((List.singleton_sublist.2 hub).cons_cons _) (List.sublist_append_right a0 _)
          have hbefore' : [Name.var w, .var u].Sublist p.order' := by
            refine List.Sublist.trans hbefore (List.Sublist.trans ?_ hs.sub)
            rw [← hs.rest]
            exact List.filter_sublist
          obtain ⟨y, hy, hyr, hy'⟩ := hex
          -- `y` is not before `u`, so `u` is before `y`
          have huy : y ≠ .var u → [Name.var u, y].Sublist p.order' := by
            intro hyu
            refine List.Sublist.trans ?_ hs.sub
            rw [he] at hy ⊢
            rcases List.mem_append.1 hy with h | h
            · exact absurd hyr (ha _ h)
            · rcases List.mem_cons.1 h with h | h
              · exact absurd h hyu
              · exact List.Sublist.trans ((List.singleton_sublist.2 h).cons_cons _) (List.sublist_append_right a _)
          rcases hy' with rfl | ⟨i, hi1, hi2⟩
          · exact sublist_swap hd.nodup hbefore' (huy (by intro h; cases h; exact hne rfl))
          · have horder : [w, u].Sublist p.order := by
              have := hbefore'.filter Name.user
              rw [order_user] at this
              have h2 : [Name.var w, Name.var u].filter Name.user = [w, u].map Name.var := rfl
              rw [h2] at this
              obtain ⟨l, h3, h4⟩ := List.sublist_map_iff.1 this
              have : l = [w, u] := by
                have inj : ∀ (x y : List Nat), x.map Name.var = y.map Name.var → x = y := by
                  intro x
                  induction x with
                  | nil => intro y h; cases y; rfl; cases h
                  | cons a x ih =>
                    intro y h
                    cases y with
                    | nil => cases h
                    | cons b y =>
                      obtain ⟨h1, h2⟩ := List.cons.inj h
                      cases h1
                      rw [ih y h2]
                exact inj _ _ h4.symm
              exact this ▸ h3
            have hfirst := added_first hi2 (hs.sub.subset (by rw [he]; simp)) (ht w u i horder hi1)
            refine sublist_swap hd.nodup hfirst (huy ?_)
            intro h
            subst h
            obtain ⟨ds, _, h2⟩ := hi2
            have := added_user p i ds h2
            cases this
        subst huw
        obtain ⟨l', h1, h2⟩ := ih (hlen he) hrest ((hs.step he hq).2 u a0 b0 rfl rfl hRn)
        exact ⟨.var u :: l', he ▸ .next ha hq h1, by rw [List.filter_cons, if_pos (by rfl), h2]⟩
      · exact takeAdded he ha hq (by simpa using hqu)

end Verif.Instrument.InitOrder
