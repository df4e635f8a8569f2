import Verif.Cmd.TraceViewProps
/-
C77: what the page of the viewer shows.
-/
namespace Verif.Cmd.TraceView
open Verif.Runtime.TraceJson Spec

/-! ### Costs -/

theorem cost_sign (b e : Int) : (if e - b < 0 then "-" else "") = (if e < b then "-" else "") := by
  by_cases h : e < b
  · rw [if_pos h, if_pos (by omega)]
  · rw [if_neg h, if_neg (by omega)]

theorem sizes_le {u : String} {s : Nat} (h : (u, s) ∈ sizes) :
    s = 1 ∨ s = 1000 ∨ s = 1000000 ∨ s = 1000000000 ∨ s = 60000000000 ∨ s = 3600000000000 ∨ s = 86400000000000 := by
  have h := List.mem_map_of_mem (f := Prod.snd) h
  rw [show sizes.map Prod.snd = [1, 1000, 1000000, 1000000000, 60000000000, 3600000000000, 86400000000000] from rfl] at h
  simpa only [List.mem_cons, List.not_mem_nil, or_false] using h

/-- The cost shown is the whole number of the largest unit that fits. -/
theorem C77_cost (b e : Int) : CostText b e (formatCost b e) := by
  unfold formatCost
  by_cases h : e = 0 ∧ b = 0
  · rw [if_pos h]; exact Or.inl ⟨h.2, h.1, rfl⟩
  rw [if_neg h]
  refine Or.inr ⟨fun g => h ⟨g.2, g.1⟩, ?_⟩
  simp only [cost_sign, units]
  generalize (e - b).natAbs = c
  generalize (if e < b then "-" else "") = sign
  have key : ∀ u size n, (u, size) ∈ sizes → n * size ≤ c → c < (n + 1) * size → (∀ u' size', (u', size') ∈ sizes → size' ≤ c → size' ≤ size) →
      (size ≤ c ∨ size = 1) → ∃ u' size' n', (u', size') ∈ sizes ∧ n' * size' ≤ c ∧ c < (n' + 1) * size' ∧
        (∀ u'' size'', (u'', size'') ∈ sizes → size'' ≤ c → size'' ≤ size') ∧ (size' ≤ c ∨ size' = 1) ∧
        sign ++ toString n ++ u = sign ++ toString n' ++ u' :=
    fun u size n h1 h2 h3 h4 h5 => ⟨u, size, n, h1, h2, h3, h4, h5, rfl⟩
  simp only [scale]
  split
  · exact key "ns" 1 c (by decide) (by omega) (by omega) (fun u s h => by have := sizes_le h; omega) (Or.inr rfl)
  split
  · exact key "μs" 1000 _ (by decide) (by omega) (by omega) (fun u s h => by have := sizes_le h; omega) (Or.inl (by omega))
  split
  · exact key "ms" 1000000 _ (by decide) (by omega) (by omega) (fun u s h => by have := sizes_le h; omega) (Or.inl (by omega))
  split
  · exact key "s" 1000000000 _ (by decide) (by omega) (by omega) (fun u s h => by have := sizes_le h; omega) (Or.inl (by omega))
  split
  · exact key "m" 60000000000 _ (by decide) (by omega) (by omega) (fun u s h => by have := sizes_le h; omega) (Or.inl (by omega))
  split
  · exact key "h" 3600000000000 _ (by decide) (by omega) (by omega) (fun u s h => by have := sizes_le h; omega) (Or.inl (by omega))
  · exact key "d" 86400000000000 _ (by decide) (by omega) (by omega) (fun u s h => by have := sizes_le h; omega) (Or.inl (by omega))

/-! ### Numbers -/

theorem numbered_ptrs : ∀ (f : Forest) (n : Nat), (numbered n f).map (·.1) = ptrs f := by
  intro f
  induction f with
  | nil => intro n; rfl
  | null rest ih => intro n; exact ih n
  | node p e kids rest ihk ihr => intro n; simp [numbered, ptrs, ihk, ihr]

theorem numbered_nums : ∀ (f : Forest) (n : Nat), (numbered n f).map (fun x => x.2.1) = List.range' n (size f) := by
  intro f
  induction f with
  | nil => intro n; rfl
  | null rest ih => intro n; exact ih n
  | node p e kids rest ihk ihr =>
    intro n
    simp only [numbered, List.map_cons, List.map_append, ihk, ihr, size]
    rw [show 1 + size kids + size rest = (size kids + size rest) + 1 by omega, List.range'_succ, List.range'_append_1]

theorem numbered_unique {f : Forest} {n : Nat} {x y : Ptr × Nat × Entry} (hx : x ∈ numbered n f) (hy : y ∈ numbered n f) (h : x.2.1 = y.2.1) : x = y := by
  obtain ⟨i, hi⟩ := List.mem_iff_getElem?.mp hx
  obtain ⟨j, hj⟩ := List.mem_iff_getElem?.mp hy
  have key : ∀ (i : Nat) z, (numbered n f)[i]? = some z → z.2.1 = n + i := by
    intro i z hz
    have h1 := congrArg (fun l : List Nat => l[i]?) (numbered_nums f n)
    simp only [List.getElem?_map, hz, Option.map_some] at h1
    have h2 := (List.getElem?_eq_some_iff.mp h1.symm).1
    rw [List.length_range'] at h2
    rw [List.getElem?_range' h2] at h1
    injection h1 with h1; omega
  have hij : i = j := by have := key i x hi; have := key j y hj; omega
  rw [hij, hj] at hi
  injection hi with hi
  exact hi.symm

theorem lookup_of_nodup {l : List (Ptr × Nat)} (hn : (l.map (·.1)).Nodup) {p : Ptr} {i : Nat} (h : (p, i) ∈ l) : l.lookup p = some i := by
  induction l with
  | nil => cases h
  | cons x l ih =>
    rw [List.map_cons, List.nodup_cons] at hn
    rw [List.lookup_cons]
    rcases List.mem_cons.mp h with rfl | h
    · simp
    · have hne : ¬ p = x.1 := fun e => hn.1 (List.mem_map.mpr ⟨(p, i), h, e⟩)
      have : (p == x.1) = false := by simpa using hne
      rw [this]
      exact ih hn.2 h

/-! ### The tops -/

theorem whole_tops (name : Nat → String) : ∀ (stacks : List Stack) (i : Nat), Whole (tops name i stacks) ↔ ∀ s ∈ stacks, Whole s.children := by
  intro stacks
  induction stacks with
  | nil => intro i; simp [tops, Whole]
  | cons s r ih => intro i; simp [tops, Whole, ih]

theorem size_tops (name name' : Nat → String) : ∀ (stacks : List Stack) (i : Nat), size (tops name i stacks) = size (tops name' i stacks) := by
  intro stacks
  induction stacks with
  | nil => intro i; rfl
  | cons s r ih => intro i; simp only [tops, size]; rw [ih]

theorem numbered_tops (name name' : Nat → String) : ∀ (stacks : List Stack) (i n : Nat),
    (numbered n (tops name i stacks)).map (fun x => (x.1, x.2.1)) = (numbered n (tops name' i stacks)).map (fun x => (x.1, x.2.1)) := by
  intro stacks
  induction stacks with
  | nil => intro i n; rfl
  | cons s r ih => intro i n; simp only [tops, numbered, List.map_cons, List.map_append]; rw [ih]

theorem ptrs_tops (name : Nat → String) : ∀ (stacks : List Stack) (i : Nat), ∀ p ∈ ptrs (tops name i stacks),
    (∃ j, i ≤ j ∧ p = .top j) ∨ ∃ s ∈ stacks, p ∈ ptrs s.children := by
  intro stacks
  induction stacks with
  | nil => intro i p h; cases h
  | cons s r ih =>
    intro i p h
    rw [tops, ptrs] at h
    rcases List.mem_cons.mp h with rfl | h
    · exact Or.inl ⟨i, Nat.le_refl _, rfl⟩
    rcases List.mem_append.mp h with h | h
    · exact Or.inr ⟨s, List.mem_cons_self, h⟩
    · rcases ih (i + 1) p h with ⟨j, h1, h2⟩ | ⟨t, h1, h2⟩
      · exact Or.inl ⟨j, by omega, h2⟩
      · exact Or.inr ⟨t, List.mem_cons_of_mem _ h1, h2⟩

theorem nodup_tops (name : Nat → String) : ∀ (stacks : List Stack) (i : Nat), Trees stacks → (ptrs (tops name i stacks)).Nodup := by
  intro stacks
  induction stacks with
  | nil => intro i _; exact List.nodup_nil
  | cons s r ih =>
    intro i ht
    obtain ⟨h1, h2⟩ := ht
    rw [List.flatMap_cons, List.nodup_append] at h1
    obtain ⟨h1, h3, h4⟩ := h1
    rw [tops, ptrs, List.nodup_cons, List.nodup_append]
    have hg : ∀ t ∈ s :: r, ∀ j, Ptr.top j ∉ ptrs t.children := fun t ht j hj => by
      obtain ⟨n, hn⟩ := h2 t ht _ hj
      cases hn
    refine ⟨fun h => ?_, h1, ih (i + 1) ⟨h3, fun t ht => h2 t (List.mem_cons_of_mem _ ht)⟩, fun a ha b hb e => ?_⟩
    · rcases List.mem_append.mp h with h | h
      · exact hg s List.mem_cons_self i h
      · rcases ptrs_tops name r (i + 1) _ h with ⟨j, hj, e⟩ | ⟨t, ht, h⟩
        · injection e with e; omega
        · exact hg t (List.mem_cons_of_mem _ ht) i h
    · subst e
      rcases ptrs_tops name r (i + 1) _ hb with ⟨j, hj, e⟩ | ⟨t, ht, h⟩
      · rw [e] at ha; exact hg s List.mem_cons_self j ha
      · exact h4 a ha a (List.mem_flatMap.mpr ⟨t, ht, h⟩) rfl

/-! ### The data -/

theorem clicked_of {ls : List Line} {id : Nat} {e : Entry} (h : Line.data id e ∈ ls) (hu : ∀ e', Line.data id e' ∈ ls → e' = e) : clicked ls id = some e := by
  unfold clicked
  cases hc : ls.reverse.findSome? (fun | .data i e => if i = id then some e else none | _ => none) with
  | none =>
    have := List.findSome?_eq_none_iff.mp hc _ (List.mem_reverse.mpr h)
    simp at this
  | some b =>
    obtain ⟨x, hx, hb⟩ := List.exists_of_findSome?_eq_some hc
    cases x <;> simp at hb
    rename_i i e'
    obtain ⟨rfl, rfl⟩ := hb
    rw [hu _ (List.mem_reverse.mp hx)]

theorem data_mem {l : List (Ptr × Nat × Entry)} {i : Nat} {e : Entry} : Line.data i e ∈ dataLines l ↔ ∃ p, (p, i, e) ∈ l := by
  unfold dataLines
  rw [List.mem_flatMap]
  constructor
  · rintro ⟨⟨p, j, f⟩, h1, h2⟩
    simp at h2
    obtain ⟨rfl, rfl⟩ := h2
    exact ⟨p, h1⟩
  · rintro ⟨p, h⟩
    exact ⟨_, h, by simp⟩

theorem items_data (ids : List (Ptr × Nat)) {i : Nat} {e : Entry} : ∀ (f : Forest) (sub : Bool), Line.data i e ∉ items ids sub f := by
  intro f sub h
  rw [← listing_items] at h
  have : ∀ l : List Line, Line.data i e ∉ listing l := by
    intro l
    induction l with
    | nil => intro h; cases h
    | cons x l ih => cases x <;> simp [listing, ih]
  exact this _ h

/-! ### The view -/

theorem label_says (e : Entry) (kids : Forest) : Says e (kids ≠ .nil) (label e kids) := by
  refine ⟨?_, rfl, ?_, C77_cost _ _, ?_⟩
  · simp only [label, shownName]
    cases e.info with
    | none => exact Or.inr ⟨fun _ h => (by cases h), if_pos rfl⟩
    | some f =>
      by_cases h : f.name = []
      · exact Or.inr ⟨fun g hg => (by injection hg with hg; rw [← hg]; exact h), if_pos h⟩
      · exact Or.inl ⟨f, rfl, h, if_neg h⟩
  · simp [label]
  · cases kids <;> simp [label, Forest.isEmpty]

theorem shows_view (data : Nat → Option Entry) : ∀ (f : Forest) (n : Nat), Whole f → (∀ x ∈ numbered n f, data x.2.1 = some x.2.2) →
    Shows data n f (viewOf n f) (n + size f) := by
  intro f
  induction f with
  | nil => intro n _ _; exact .nil
  | null rest _ => intro n h; exact absurd h id
  | node p e kids rest ihk ihr =>
    intro n hw hd
    have h1 : n + size (.node p e kids rest) = n + 1 + size kids + size rest := by simp only [size]; omega
    rw [h1]
    exact .node (hd (p, n, e) List.mem_cons_self) (label_says e kids)
      (ihk _ hw.1 fun x hx => hd x (List.mem_cons_of_mem _ (List.mem_append_left _ hx)))
      (ihr _ hw.2 fun x hx => hd x (List.mem_cons_of_mem _ (List.mem_append_right _ hx)))

theorem shows_tops (data : Nat → Option Entry) (name : Nat → String) (hname : ∀ i, lit (name i) ≠ []) : ∀ (stacks : List Stack) (i n : Nat), (∀ s ∈ stacks, Whole s.children) →
    (∀ x ∈ numbered n (tops (fun _ => "<root>") i stacks), data x.2.1 = some x.2.2) →
    ShowsStacks data n ((stacks.zipIdx i).map fun p => (lit (name p.2), p.1)) (viewOf n (tops name i stacks)) (n + size (tops name i stacks)) := by
  intro stacks
  induction stacks with
  | nil => intro i n _ _; exact .nil
  | cons s r ih =>
    intro i n hw hd
    have h1 : n + size (tops name i (s :: r)) = n + 1 + size s.children + size (tops name (i + 1) r) := by simp only [tops, size]; omega
    rw [h1]
    rw [List.zipIdx_cons, List.map_cons]
    refine .cons ⟨_, _, hd (.top i, n, root "<root>") List.mem_cons_self, rfl, rfl⟩ ?_ rfl rfl rfl ?_
      (shows_view data _ _ (hw s List.mem_cons_self) fun x hx => hd x (List.mem_cons_of_mem _ (List.mem_append_left _ hx)))
      (ih (i + 1) _ (fun t ht => hw t (List.mem_cons_of_mem _ ht)) fun x hx => hd x (List.mem_cons_of_mem _ (List.mem_append_right _ hx)))
    · exact if_neg (hname i)
    · cases s.children <;> simp [label, Forest.isEmpty]

theorem rootName_ne (n i : Nat) : lit (rootName n i) ≠ [] := by
  unfold rootName
  split
  · intro h
    have := congrArg List.length h
    simp [lit] at this
  · decide

theorem titled_eq (stacks : List Stack) : titled stacks = (stacks.zipIdx 0).map fun p => (lit (rootName stacks.length p.2), p.1) := by
  unfold titled rootName
  split
  · rfl
  · rename_i h
    apply List.map_congr_left
    intro p hp
    have : stacks.length > 1 := by
      match stacks, h with
      | [], _ => cases hp
      | [s], h => exact absurd rfl (h s)
      | a :: b :: l, _ => simp
    rw [if_pos this]

/-- The number of items. -/
def pushed : List Line → List Nat
  | [] => []
  | .push i :: r => i :: pushed r
  | _ :: r => pushed r

theorem pushed_append : ∀ a b : List Line, pushed (a ++ b) = pushed a ++ pushed b := by
  intro a b
  induction a with
  | nil => rfl
  | cons x a ih => cases x <;> simp [pushed, ih]

theorem pushed_data (l : List (Ptr × Nat × Entry)) : pushed (dataLines l) = l.map fun x => x.2.1 := by
  induction l with
  | nil => rfl
  | cons x l ih =>
    rw [show dataLines (x :: l) = [.data x.2.1 x.2.2, .push x.2.1] ++ dataLines l from rfl, pushed_append, ih]
    rfl

theorem pushed_items (ids : List (Ptr × Nat)) (f : Forest) (sub : Bool) : pushed (items ids sub f) = [] := by
  rw [← listing_items]
  generalize items ids sub f = l
  induction l with
  | nil => rfl
  | cons x l ih => cases x <;> simpa [listing, pushed] using ih

/-- The page shows the stacks of the file, one after another: every call once, under its caller, in order, with its own name, marks and
    cost; a click on a call shows that call; the calls that can be folded and unfolded together are all of them. -/
theorem C77_page {stacks : List Stack} (file : Str) (hw : ∀ s ∈ stacks, Whole s.children) (ht : Trees stacks) :
    (page stacks file).complete = true ∧ ∃ v k, shown (page stacks file).lines = some v ∧
      ShowsStacks (clicked (page stacks file).lines) 1 (titled stacks) v (1 + k) ∧ pushed (page stacks file).lines = List.range' 1 k := by
  let F := tops (fun _ => "<root>") 0 stacks
  let G := tops (rootName stacks.length) 0 stacks
  have hF : Whole F := (whole_tops _ _ _).mpr hw
  have hG : Whole G := (whole_tops _ _ _).mpr hw
  let ids := ((numbered 1 F).map fun x => (x.1, x.2.1)).reverse
  have hpage : page stacks file = { lines := [.title file] ++ dataLines (numbered 1 F) ++ items ids false G, complete := true } := by
    unfold page
    rw [walk_whole _ _ hF]
    simp [ids, F, G]
  have hids : Agrees ids 1 G := by
    intro x hx
    have h1 : (x.1, x.2.1) ∈ (numbered 1 F).map fun x => (x.1, x.2.1) := by
      have := List.mem_map_of_mem (f := fun x : Ptr × Nat × Entry => (x.1, x.2.1)) hx
      rw [numbered_tops (rootName stacks.length) (fun _ => "<root>") stacks 0 1] at this
      exact this
    have h2 : (ids.map (·.1)).Nodup := by
      simp only [ids, List.map_reverse, List.map_map]
      rw [show (fun x : Ptr × Nat => x.1) ∘ (fun x : Ptr × Nat × Entry => (x.1, x.2.1)) = (fun x => x.1) from rfl, numbered_ptrs]
      exact List.pairwise_reverse.mpr ((nodup_tops _ _ _ ht).imp Ne.symm)
    unfold idOf
    rw [lookup_of_nodup h2 (List.mem_reverse.mpr h1)]
    rfl
  have hdata : ∀ x ∈ numbered 1 F, clicked (page stacks file).lines x.2.1 = some x.2.2 := by
    intro x hx
    rw [hpage]
    refine clicked_of (List.mem_append_left _ (List.mem_append_right _ (data_mem.mpr ⟨x.1, hx⟩))) fun e' he => ?_
    rcases List.mem_append.mp he with he | he
    · rcases List.mem_append.mp he with he | he
      · simp at he
      · obtain ⟨p, hp⟩ := data_mem.mp he
        have := numbered_unique hx hp rfl
        rw [this]
    · exact absurd he (items_data _ _ _)
  refine ⟨by rw [hpage], viewOf 1 G, size G, ?_, ?_, ?_⟩
  · rw [hpage]
    have hl : listing ([Line.title file] ++ dataLines (numbered 1 F) ++ items ids false G) = items ids false G := by
      rw [listing_append, listing_append, listing_data, listing_items]; rfl
    unfold shown
    simp only [hl]
    have hlen : size G + 1 ≤ (items ids false G).length + 1 := by
      have : ∀ (f : Forest) (sub : Bool), size f ≤ (items ids sub f).length := by
        intro f
        induction f with
        | nil => intro sub; exact Nat.le_refl _
        | null rest ih => intro sub; exact ih sub
        | node p e kids rest ihk ihr =>
          intro sub
          have h1 := ihk true
          have h2 := ihr sub
          rw [items, size]
          cases kids with
          | nil => simp only [Forest.isEmpty, List.length_append, List.length_cons, size]; omega
          | null r => simp only [Forest.isEmpty, Bool.false_eq_true, if_false, List.length_append, List.length_cons]; omega
          | node a b c d => simp only [Forest.isEmpty, Bool.false_eq_true, if_false, List.length_append, List.length_cons]; omega
      have := this G false
      omega
    have := outline_items ids G 1 false ((items ids false G).length + 1) [] hG hids rfl rfl hlen
    rw [List.append_nil] at this
    rw [this]
    rfl
  · rw [titled_eq]
    exact shows_tops _ _ (rootName_ne _) stacks 0 1 hw hdata
  · rw [hpage]
    simp only [pushed_append, pushed_data, pushed_items, numbered_nums]
    rw [show size F = size G from size_tops _ _ _ _]
    simp [pushed]

/-- A `null` among the calls stops the page before its list: nothing is shown. -/
theorem C77_null_partial {stacks : List Stack} (file : Str) (h : ∃ s ∈ stacks, ¬ Whole s.children) :
    (page stacks file).complete = false ∧ listing (page stacks file).lines = [] := by
  have hF : ¬ Whole (tops (fun _ => "<root>") 0 stacks) := fun hw => by
    obtain ⟨s, hs, hn⟩ := h
    exact hn ((whole_tops _ _ _).mp hw s hs)
  unfold page
  simp only
  rw [if_neg (by rw [walk_null _ _ hF]; simp)]
  exact ⟨rfl, walk_listing _ _ rfl⟩

end Verif.Cmd.TraceView
