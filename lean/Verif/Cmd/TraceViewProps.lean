import Verif.Cmd.TraceViewSpec
/-
C77: the walk over the stacks and the list of the page.
-/
namespace Verif.Cmd.TraceView
open Verif.Runtime.TraceJson Spec

/-! ### Numbering -/

def size : Forest → Nat
  | .nil => 0
  | .null rest => size rest
  | .node _ _ kids rest => 1 + size kids + size rest

/-- The entries with their addresses and numbers, in order. -/
def numbered : Nat → Forest → List (Ptr × Nat × Entry)
  | _, .nil => []
  | n, .null rest => numbered n rest
  | n, .node p e kids rest => (p, n, e) :: (numbered (n + 1) kids ++ numbered (n + 1 + size kids) rest)

def dataLines (l : List (Ptr × Nat × Entry)) : List Line := l.flatMap fun x => [.data x.2.1 x.2.2, .push x.2.1]

theorem dataLines_append (a b : List (Ptr × Nat × Entry)) : dataLines (a ++ b) = dataLines a ++ dataLines b := by
  simp [dataLines]

theorem walk_whole : ∀ (f : Forest) (w : Walk), Whole f → walk f w =
    ({ lines := w.lines ++ dataLines (numbered w.next f), ids := ((numbered w.next f).map fun x => (x.1, x.2.1)).reverse ++ w.ids,
       next := w.next + size f }, true) := by
  intro f
  induction f with
  | nil => intro w _; simp [walk, numbered, size, dataLines]
  | null rest _ => intro w h; exact absurd h id
  | node p e kids rest ihk ihr =>
    intro w h
    rw [walk]
    rw [ihk _ h.1]
    simp only [if_true]
    rw [ihr _ h.2]
    simp only [numbered, size, List.map_cons, List.map_append, List.reverse_cons, List.reverse_append, List.append_assoc]
    have h1 : w.next + 1 + size kids + size rest = w.next + (1 + size kids + size rest) := by omega
    rw [h1]
    congr 1
    congr 1
    rw [show ∀ (x : Ptr × Nat × Entry) l, x :: l = [x] ++ l from fun _ _ => rfl, dataLines_append, dataLines_append]
    simp [dataLines]

theorem walk_null : ∀ (f : Forest) (w : Walk), ¬ Whole f → (walk f w).2 = false := by
  intro f
  induction f with
  | nil => intro w h; exact absurd trivial h
  | null rest _ => intro w _; rfl
  | node p e kids rest ihk ihr =>
    intro w h
    rw [walk]
    by_cases hk : Whole kids
    · rw [walk_whole kids _ hk]
      simp only [if_true]
      exact ihr _ fun hr => h ⟨hk, hr⟩
    · rw [ihk _ hk]
      exact ihk _ hk

/-- The lines of the walk are those of the script. -/
theorem walk_listing : ∀ (f : Forest) (w : Walk), listing w.lines = [] → listing (walk f w).1.lines = [] := by
  intro f
  induction f with
  | nil => intro w h; exact h
  | null rest _ => intro w h; exact h
  | node p e kids rest ihk ihr =>
    intro w h
    rw [walk]
    have hd : ∀ l : List Line, listing l = [] → listing (l ++ [.data w.next e, .push w.next]) = [] := by
      intro l
      induction l with
      | nil => intro _; rfl
      | cons x l ih => cases x <;> simp only [listing, List.cons_append] <;> intro h <;> first | exact ih h | cases h
    split
    · exact ihr _ (ihk _ (hd _ h))
    · exact ihk _ (hd _ h)

theorem listing_append : ∀ a b : List Line, listing (a ++ b) = listing a ++ listing b := by
  intro a b
  induction a with
  | nil => rfl
  | cons x a ih => cases x <;> simp [listing, ih]

theorem listing_data (l : List (Ptr × Nat × Entry)) : listing (dataLines l) = [] := by
  induction l with
  | nil => rfl
  | cons x l ih => simpa [dataLines, listing] using ih

theorem listing_items (ids : List (Ptr × Nat)) : ∀ (f : Forest) (sub : Bool), listing (items ids sub f) = items ids sub f := by
  intro f
  induction f with
  | nil => intro sub; rfl
  | null rest ih => intro sub; exact ih sub
  | node p e kids rest ihk ihr =>
    intro sub
    rw [items]
    cases sub <;> cases kids.isEmpty <;> simp [listing_append, listing, ihk, ihr]

/-! ### The list read back -/

/-- Every entry has its number in the mapping. -/
def Agrees (ids : List (Ptr × Nat)) (n : Nat) (f : Forest) : Prop := ∀ x ∈ numbered n f, idOf ids x.1 = x.2.1

def viewOf : Nat → Forest → View
  | _, .nil => .nil
  | n, .null rest => viewOf n rest
  | n, .node _ e kids rest => .node n (label e kids) (viewOf (n + 1) kids) (viewOf (n + 1 + size kids) rest)

theorem outline_items (ids : List (Ptr × Nat)) : ∀ (f : Forest) (n : Nat) (sub : Bool) (fuel : Nat) (more : List Line), Whole f → Agrees ids n f →
    start sub more = none → opens more = none → size f + 1 ≤ fuel → outline fuel sub (items ids sub f ++ more) = some (viewOf n f, more) := by
  intro f
  induction f with
  | nil =>
    intro n sub fuel more _ _ hs _ hf
    obtain ⟨k, rfl⟩ : ∃ k, fuel = k + 1 := ⟨fuel - 1, by omega⟩
    rw [items, List.nil_append, outline, hs]
    rfl
  | null rest _ => intro n sub fuel more h; exact absurd h id
  | node p e kids rest ihk ihr =>
    intro n sub fuel more hw ha hs ho hf
    simp only [size] at hf
    obtain ⟨k, rfl⟩ : ∃ k, fuel = k + 1 := ⟨fuel - 1, by omega⟩
    have hid : idOf ids p = n := ha (p, n, e) List.mem_cons_self
    have hak : Agrees ids (n + 1) kids := fun x hx => ha x (List.mem_cons_of_mem _ (List.mem_append_left _ hx))
    have har : Agrees ids (n + 1 + size kids) rest := fun x hx => ha x (List.mem_cons_of_mem _ (List.mem_append_right _ hx))
    have hrest := ihr (n + 1 + size kids) sub k more hw.2 har hs ho (by omega)
    have hopen : opens ((if sub then [.endLi] else []) ++ (items ids sub rest ++ more)) = none := by
      cases sub with
      | true => rfl
      | false => cases rest with
        | nil => exact ho
        | null r => exact absurd hw.2 id
        | node p' e' k' r' => rw [items]; rfl
    have hleave : leaves sub ((if sub then [.endLi] else []) ++ (items ids sub rest ++ more)) = some (items ids sub rest ++ more) := by
      cases sub <;> rfl
    have hstart : start sub (items ids sub (.node p e kids rest) ++ more) = some (n, label e kids,
        (if kids.isEmpty then [] else .openList n :: (items ids true kids ++ [.endList])) ++ ((if sub then [.endLi] else []) ++ (items ids sub rest ++ more))) := by
      rw [items, hid]
      simp only [List.append_assoc]
      cases sub <;> rfl
    rw [outline, hstart]
    simp only
    generalize (if sub then [.endLi] else []) ++ (items ids sub rest ++ more) = r at hopen hleave
    cases kids with
    | nil =>
      simp only [Forest.isEmpty, if_true, List.nil_append, viewOf]
      rw [hopen]
      simp only [Option.bind_some, hleave, hrest, Option.map_some, size, viewOf]
    | null r' => exact absurd hw.1 id
    | node p' e' k' r' =>
      have := ihk (n + 1) true k (.endList :: r) hw.1 hak rfl rfl (by simp only [size] at hf ⊢; omega)
      simp only [Forest.isEmpty, Bool.false_eq_true, if_false, List.cons_append, List.append_assoc, opens, if_true, List.nil_append]
      rw [this]
      simp only [Option.bind_some, closes, Option.map_some, hleave, hrest, viewOf]

end Verif.Cmd.TraceView
