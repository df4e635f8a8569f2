/- Lemmas on the order of initialisation. -/
import Verif.Instrument.InitOrderSpec

namespace Verif.Instrument.InitOrder

theorem Reach.trans {α} {refs : α → List α} {a b c : α} (h1 : Reach refs a b) (h2 : Reach refs b c) : Reach refs a c := by
  induction h2 with
  | one h => exact .more h1 h
  | more _ h ih => exact .more ih h

/-- The first edge. -/
theorem Reach.first {α} {refs : α → List α} {a c : α} (h : Reach refs a c) : ∃ b ∈ refs a, b = c ∨ Reach refs b c := by
  induction h with
  | one h => exact ⟨_, h, .inl rfl⟩
  | @more b c _ hc ih =>
    obtain ⟨x, hx, h | h⟩ := ih
    · subst h; exact ⟨_, hx, .inr (.one hc)⟩
    · exact ⟨x, hx, .inr (.more h hc)⟩

/-- What is reached in the instrumented package, in terms of the source. -/
def Back (p : Pkg) (a : Name) : Name → Prop
  | .var v => Reach p.refs a (.var v)
  | .func f => Reach p.refs a (.func f)
  | .getter v _ => Reach p.refs a (.var v)
  | .infoVar v => Reach p.refs a (.var v)
  | _ => True

theorem back_use {p : Pkg} {a b : Name} {r : Ref} (h : Reach p.refs a b ∨ a = b) (hr : r.plain ∈ p.refs b) : Back p a (p.use r) := by
  have hreach : Reach p.refs a r.plain := by
    rcases h with h | rfl
    · exact .more h hr
    · exact .one hr
  cases r with
  | func f => exact hreach
  | var v g =>
    unfold Pkg.use
    simp only
    split <;> exact hreach

theorem back {p : Pkg} {v : Nat} {b : Name} (h : Reach p.refs' (.var v) b) : Back p (.var v) b := by
  have step : ∀ b c, (Back p (.var v) b ∨ b = .var v) → c ∈ p.refs' b → Back p (.var v) c := by
    intro b c hb hc
    cases b with
    | var w =>
      obtain ⟨r, hr, rfl⟩ := List.mem_map.1 hc
      refine back_use (b := .var w) ?_ (List.mem_map.2 ⟨r, hr, rfl⟩)
      rcases hb with hb | hb
      · exact .inl hb
      · exact .inr hb.symm
    | func f =>
      have hb : Reach p.refs (.var v) (.func f) := by rcases hb with hb | hb; exact hb; cases hb
      rcases List.mem_append.1 hc with hc | hc
      · obtain ⟨r, hr, rfl⟩ := List.mem_map.1 hc
        exact back_use (b := .func f) (.inl hb) (List.mem_map.2 ⟨r, hr, rfl⟩)
      · split at hc
        · rcases List.mem_cons.1 hc with rfl | hc
          · trivial
          · rw [List.mem_singleton.1 hc]; trivial
        · cases hc
    | getter w a =>
      have hb : Reach p.refs (.var v) (.var w) := by rcases hb with hb | hb; exact hb; cases hb
      rcases List.mem_cons.1 hc with rfl | hc
      · trivial
      rcases List.mem_cons.1 hc with rfl | hc
      · exact hb
      rw [List.mem_singleton.1 hc]; exact hb
    | stub i k => cases hc
    | infoVar w =>
      have hb : Reach p.refs (.var v) (.var w) := by rcases hb with hb | hb; exact hb; cases hb
      rcases List.mem_cons.1 hc with rfl | hc
      · trivial
      rcases List.mem_cons.1 hc with rfl | hc
      · trivial
      rw [List.mem_singleton.1 hc]; exact hb
    | infoFunc f =>
      rcases List.mem_cons.1 hc with rfl | hc
      · trivial
      rw [List.mem_singleton.1 hc]; trivial
    | infoIntf t =>
      rcases List.mem_cons.1 hc with rfl | hc
      · trivial
      rw [List.mem_singleton.1 hc]; trivial
  induction h with
  | one h => exact step _ _ (.inr rfl) h
  | more _ h ih => exact step _ _ (.inl ih) h

/-- What is reached in the source is reached in the instrumented package. -/
theorem forth {p : Pkg} {a b : Name} (h : Reach p.refs a b) : Reach p.refs' a b := by
  have step : ∀ a b, b ∈ p.refs a → Reach p.refs' a b := by
    intro a b h
    have use : ∀ r : Ref, p.use r ∈ p.refs' a → Reach p.refs' a r.plain := by
      intro r hr
      cases r with
      | func f => exact .one hr
      | var v g =>
        unfold Pkg.use at hr
        simp only at hr
        split at hr
        · exact .one hr
        · exact .more (.one hr) (by simp [Pkg.refs', Ref.plain])
    cases a with
    | var v =>
      obtain ⟨r, hr, rfl⟩ := List.mem_map.1 h
      exact use r (List.mem_map.2 ⟨r, hr, rfl⟩)
    | func f =>
      obtain ⟨r, hr, rfl⟩ := List.mem_map.1 h
      exact use r (List.mem_append_left _ (List.mem_map.2 ⟨r, hr, rfl⟩))
    | getter _ _ | stub _ _ | infoVar _ | infoFunc _ | infoIntf _ => cases h
  induction h with
  | one h => exact step _ _ h
  | more _ h ih => exact ih.trans (step _ _ h)

/-- The user's variables depend on each other as in the source. -/
theorem depends_iff {p : Pkg} {v w : Nat} : Depends p.refs' (.var v) (.var w) ↔ Depends p.refs (.var v) (.var w) :=
  ⟨fun h => ⟨back h.1, rfl⟩, fun h => ⟨forth h.1, rfl⟩⟩

/-- In the source, a variable only depends on the user's variables. -/
theorem depends_user {p : Pkg} {a b : Name} (h : Depends p.refs a b) : ∃ w, b = .var w := by
  obtain ⟨h, hv⟩ := h
  have plain : ∀ r : Ref, r.plain.isVar = true → ∃ w, r.plain = .var w := by
    intro r hr
    cases r with
    | func f => cases hr
    | var v g => exact ⟨v, rfl⟩
  have step : ∀ a, b ∈ p.refs a → ∃ w, b = .var w := by
    intro a hm
    cases a with
    | var v =>
      obtain ⟨r, _, rfl⟩ := List.mem_map.1 hm
      exact plain r hv
    | func f =>
      obtain ⟨r, _, rfl⟩ := List.mem_map.1 hm
      exact plain r hv
    | getter _ _ | stub _ _ | infoVar _ | infoFunc _ | infoIntf _ => cases hm
  cases h with
  | one h => exact step _ h
  | more _ h => exact step _ h

/-- What the variable `v` needs, and in which file it is. -/
def Needed (p : Pkg) (v : Nat) : Name → Prop
  | .var _ => True
  | .func _ => True
  | .getter w _ => p.intercepted w = true
  | .stub i _ => p.Uses v i ∧ ((∃ f, p.trapped f = true ∧ p.homeFunc f = i) ∨ ∃ w, p.intercepted w = true ∧ p.homeVar w = i)
  | .infoVar w => p.intercepted w = true ∧ p.Uses v (p.homeVar w)
  | .infoFunc f => p.trapped f = true ∧ p.Uses v (p.homeFunc f)
  | .infoIntf _ => False

theorem needed {p : Pkg} {v : Nat} {b : Name} (h : Reach p.refs' (.var v) b) : Needed p v b := by
  have use : ∀ r : Ref, Needed p v (p.use r) := by
    intro r
    cases r with
    | func f => trivial
    | var w g =>
      unfold Pkg.use
      simp only
      split
      · trivial
      · rename_i a hg
        split at hg
        · assumption
        · cases hg
  have step : ∀ b c, (Reach p.refs' (.var v) b ∧ Needed p v b ∨ b = .var v) → c ∈ p.refs' b → Needed p v c := by
    intro b c hb hc
    cases b with
    | var w =>
      obtain ⟨r, _, rfl⟩ := List.mem_map.1 hc
      exact use r
    | func f =>
      have hb : Reach p.refs' (.var v) (.func f) := by rcases hb with hb | hb; exact hb.1; cases hb
      rcases List.mem_append.1 hc with hc | hc
      · obtain ⟨r, _, rfl⟩ := List.mem_map.1 hc
        exact use r
      · split at hc
        · rename_i ht
          have hu : p.Uses v (p.homeFunc f) := .inl ⟨f, hb, ht, rfl⟩
          rcases List.mem_cons.1 hc with rfl | hc
          · exact ⟨hu, .inl ⟨f, ht, rfl⟩⟩
          · rw [List.mem_singleton.1 hc]; exact ⟨ht, hu⟩
        · cases hc
    | getter w a =>
      have hb : Reach p.refs' (.var v) (.getter w a) ∧ p.intercepted w = true := by rcases hb with hb | hb; exact hb; cases hb
      have hu : p.Uses v (p.homeVar w) := .inr ⟨w, a, hb.1, rfl⟩
      rcases List.mem_cons.1 hc with rfl | hc
      · exact ⟨hu, .inr ⟨w, hb.2, rfl⟩⟩
      rcases List.mem_cons.1 hc with rfl | hc
      · exact ⟨hb.2, hu⟩
      rw [List.mem_singleton.1 hc]; trivial
    | stub i k => cases hc
    | infoVar w =>
      have hb : Needed p v (.infoVar w) := by rcases hb with hb | hb; exact hb.2; cases hb
      rcases List.mem_cons.1 hc with rfl | hc
      · exact ⟨hb.2, .inr ⟨w, hb.1, rfl⟩⟩
      rcases List.mem_cons.1 hc with rfl | hc
      · exact ⟨hb.2, .inr ⟨w, hb.1, rfl⟩⟩
      rw [List.mem_singleton.1 hc]; trivial
    | infoFunc f =>
      have hb : Needed p v (.infoFunc f) := by rcases hb with hb | hb; exact hb.2; cases hb
      rcases List.mem_cons.1 hc with rfl | hc
      · exact ⟨hb.2, .inl ⟨f, hb.1, rfl⟩⟩
      rw [List.mem_singleton.1 hc]; exact ⟨hb.2, .inl ⟨f, hb.1, rfl⟩⟩
    | infoIntf t =>
      have hb : Needed p v (.infoIntf t) := by rcases hb with hb | hb; exact hb.2; cases hb
      exact absurd hb id
  induction h with
  | one h => exact step _ _ (.inr rfl) h
  | more hr h ih => exact step _ _ (.inl ⟨hr, ih⟩) h

/-! ### Declarations -/

/-- `g` is added to file `i`. -/
def InFile (p : Pkg) (i : Nat) (g : Name) : Prop := ∃ ds, p.files[i]? = some ds ∧ g ∈ p.added i ds

theorem stub_in {p : Pkg} (hd : p.Declared) {i : Nat} (k : Stub)
    (h : (∃ f, p.trapped f = true ∧ p.homeFunc f = i) ∨ ∃ w, p.intercepted w = true ∧ p.homeVar w = i) : InFile p i (.stub i k) := by
  have key : ∀ ds, p.infos ds ≠ [] → Name.stub i k ∈ p.added i ds := by
    intro ds hne
    unfold Pkg.added
    rw [if_neg hne]
    refine List.mem_append_left _ (List.mem_map.2 ⟨k, ?_, rfl⟩)
    cases k <;> simp
  rcases h with ⟨f, ht, rfl⟩ | ⟨w, hw, rfl⟩
  · obtain ⟨ds, h1, h2⟩ := hd.funcs f ht
    refine ⟨ds, h1, key ds fun h0 => ?_⟩
    have : Name.infoFunc f ∈ p.infos ds := by
      unfold Pkg.infos
      refine List.mem_append_left _ (List.mem_append_right _ (List.mem_filterMap.2 ⟨_, h2, ?_⟩))
      simp only [ht, if_true]
    rw [h0] at this; cases this
  · obtain ⟨ds, h1, h2⟩ := hd.vars w hw
    refine ⟨ds, h1, key ds fun h0 => ?_⟩
    have : Name.infoVar w ∈ p.infos ds := by
      unfold Pkg.infos
      exact List.mem_append_left _ (List.mem_append_left _ (List.mem_map.2 ⟨w, List.mem_filter.2 ⟨h2, hw⟩, rfl⟩))
    rw [h0] at this; cases this

theorem info_added {p : Pkg} {i : Nat} {ds : List Decl} {g : Name} (h : g ∈ p.infos ds) : g ∈ p.added i ds := by
  unfold Pkg.added
  rw [if_neg (by intro h0; rw [h0] at h; cases h)]
  exact List.mem_append_right _ h

theorem infoFunc_in {p : Pkg} (hd : p.Declared) {f : Nat} (ht : p.trapped f = true) : InFile p (p.homeFunc f) (.infoFunc f) := by
  obtain ⟨ds, h1, h2⟩ := hd.funcs f ht
  refine ⟨ds, h1, info_added ?_⟩
  unfold Pkg.infos
  refine List.mem_append_left _ (List.mem_append_right _ (List.mem_filterMap.2 ⟨_, h2, ?_⟩))
  simp only [ht, if_true]

theorem infoVar_in {p : Pkg} (hd : p.Declared) {w : Nat} (hw : p.intercepted w = true) : InFile p (p.homeVar w) (.infoVar w) := by
  obtain ⟨ds, h1, h2⟩ := hd.vars w hw
  refine ⟨ds, h1, info_added ?_⟩
  unfold Pkg.infos
  exact List.mem_append_left _ (List.mem_append_left _ (List.mem_map.2 ⟨w, List.mem_filter.2 ⟨h2, hw⟩, rfl⟩))

theorem added_user (p : Pkg) (i : Nat) (ds : List Decl) {x : Name} (hx : x ∈ p.added i ds) : x.user = false := by
  unfold Pkg.added at hx
  split at hx
  · cases hx
  · rcases List.mem_append.1 hx with hx | hx
    · obtain ⟨k, _, rfl⟩ := List.mem_map.1 hx
      rfl
    · unfold Pkg.infos at hx
      rcases List.mem_append.1 hx with hx | hx
      · rcases List.mem_append.1 hx with hx | hx
        · obtain ⟨k, _, rfl⟩ := List.mem_map.1 hx
          rfl
        · obtain ⟨d, _, hd⟩ := List.mem_filterMap.1 hx
          split at hd
          · split at hd
            · cases hd; rfl
            · cases hd
          · cases hd
      · obtain ⟨d, _, hd⟩ := List.mem_filterMap.1 hx
        split at hd
        · cases hd; rfl
        · cases hd

theorem user_map (l : List Nat) : (l.map Name.var).filter Name.user = l.map .var := by
  rw [List.filter_eq_self]
  intro x hx
  obtain ⟨y, _, rfl⟩ := List.mem_map.1 hx
  rfl

theorem file_user (p : Pkg) (i : Nat) (ds : List Decl) : (p.fileOrder i ds).filter Name.user = (names ds).map .var := by
  unfold Pkg.fileOrder
  rw [List.filter_append, List.filter_append, user_map, user_map]
  have h2 : (p.added i ds).filter Name.user = [] := by
    rw [List.filter_eq_nil_iff]
    intro x hx
    rw [added_user p i ds hx]
    exact Bool.false_ne_true
  rw [h2, List.append_nil, ← List.map_append]
  congr 1
  unfold names
  rw [← List.flatten_append, ← List.map_append, List.take_append_drop]

theorem files_user (p : Pkg) (l : List (List Decl)) (k : Nat) : (((l.zipIdx k).map fun x => p.fileOrder x.2 x.1).flatten).filter Name.user =
    ((l.map names).flatten).map .var := by
  induction l generalizing k with
  | nil => rfl
  | cons d l ih =>
    rw [List.zipIdx_cons, List.map_cons, List.flatten_cons, List.filter_append, file_user, ih, List.map_cons, List.flatten_cons, List.map_append]

/-- The user's variables are declared in the order of the source. -/
theorem order_user (p : Pkg) : p.order'.filter Name.user = p.order.map .var := files_user p p.files 0

/-- Splitting the package at a file. -/
theorem order_at {p : Pkg} {i : Nat} {ds : List Decl} (h : p.files[i]? = some ds) : ∃ a b, p.order' =
    a ++ ((names (ds.take 1)).map .var ++ p.added i ds ++ (names (ds.drop 1)).map .var) ++ b ∧
    a.filter Name.user = (((p.files.take i).map names).flatten).map .var := by
  obtain ⟨hlt, h2⟩ := List.getElem?_eq_some_iff.1 h
  have hsplit : p.files = p.files.take i ++ ds :: p.files.drop (i + 1) := by
    rw [← h2, ← List.drop_eq_getElem_cons hlt, List.take_append_drop]
  refine ⟨(((p.files.take i).zipIdx 0).map fun x => p.fileOrder x.2 x.1).flatten,
    (((p.files.drop (i + 1)).zipIdx (i + 1)).map fun x => p.fileOrder x.2 x.1).flatten, ?_, files_user p _ _⟩
  unfold Pkg.order'
  conv => lhs; rw [hsplit]
  rw [List.zipIdx_append, List.map_append, List.flatten_append, List.zipIdx_cons, List.map_cons, List.flatten_cons]
  simp only [List.length_take, Nat.min_eq_left (Nat.le_of_lt hlt), Nat.zero_add]
  rw [List.append_assoc]
  rfl

theorem inFile_order {p : Pkg} {i : Nat} {g : Name} (h : InFile p i g) : g ∈ p.order' := by
  obtain ⟨ds, h1, h2⟩ := h
  obtain ⟨a, b, e, _⟩ := order_at h1
  rw [e]
  simp [h2]

/-- What is added to a file is declared before the variables that are not declared before it. -/
theorem added_first {p : Pkg} {i u : Nat} {g : Name} (h : InFile p i g) (hu : Name.var u ∈ p.order') (hb : u ∉ p.before i) :
    [g, .var u].Sublist p.order' := by
  obtain ⟨ds, h1, h2⟩ := h
  obtain ⟨a, b, e, ha⟩ := order_at h1
  unfold Pkg.before at hb
  rw [h1] at hb
  simp only [Option.getD_some, List.mem_append, not_or] at hb
  have hna : Name.var u ∉ a := by
    intro hm
    have : Name.var u ∈ a.filter Name.user := List.mem_filter.2 ⟨hm, rfl⟩
    rw [ha] at this
    obtain ⟨w, hw, hwu⟩ := List.mem_map.1 this
    cases hwu
    exact hb.1 hw
  rw [e] at hu ⊢
  have hrest : Name.var u ∈ (names (ds.drop 1)).map .var ++ b := by
    rw [List.mem_append, List.mem_append, List.mem_append, List.mem_append] at hu
    rcases hu with (hu | (hu | hu) | hu) | hu
    · exact absurd hu hna
    · obtain ⟨w, hw, hwu⟩ := List.mem_map.1 hu
      cases hwu
      exact absurd hw hb.2
    · have := added_user p i ds hu; cases this
    · exact List.mem_append_left _ hu
    · exact List.mem_append_right _ hu
  have e2 : a ++ ((names (ds.take 1)).map .var ++ p.added i ds ++ (names (ds.drop 1)).map .var) ++ b =
      (a ++ (names (ds.take 1)).map .var) ++ (p.added i ds ++ ((names (ds.drop 1)).map .var ++ b)) := by simp
  rw [e2]
  refine List.Sublist.trans ?_ (List.sublist_append_right _ _)
  exact List.Sublist.append (List.singleton_sublist.2 h2) (List.singleton_sublist.2 hrest)

theorem sublist_swap {α} {l : List α} (hl : l.Nodup) {a b : α} (h1 : [a, b].Sublist l) (h2 : [b, a].Sublist l) : False := by
  induction l with
  | nil => cases h1
  | cons x l ih =>
    obtain ⟨hx, hl⟩ := List.nodup_cons.1 hl
    cases h1 with
    | cons _ h1 =>
      cases h2 with
      | cons _ h2 => exact ih hl h1 h2
      | cons_cons _ h2 => exact hx (h1.subset (by simp))
    | cons_cons _ h1 =>
      cases h2 with
      | cons _ h2 => exact hx (h2.subset (by simp))
      | cons_cons _ h2 => exact hx (h1.subset (by simp))

end Verif.Instrument.InitOrder
