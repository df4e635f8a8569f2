import Verif.Instrument.VarTypeProps
import Verif.Instrument.FuncTrapNames
/-
C73: the getter of an instrumented variable has the type of the variable.
-/
namespace Verif.Instrument.VarType
open Spec

variable {P : Prog} {seen : Seen}

mutual
/-- The plain rules are rules. -/
theorem mono {env : Env} {e : Expr} {F : Fact} : Is P true env e F → Is P false env e F
  | .alias h1 h2 => .alias h1 (mono h2)
  | .defined h1 => .defined h1
  | .declared h1 h2 => .declared h1 (mono h2)
  | .var h1 h2 => .var h1 (mono h2)
  | .vars h0 h1 h2 h3 h4 h5 => .vars rfl h1 (mono h2) (mono_under h3) h4 (mono h5)
  | .const h1 h2 => .const h1 (mono h2)
  | .func h1 => .func h1
  | .imported h1 h2 => .imported h1 h2
  | .basic h1 h2 h3 => .basic h1 h2 h3
  | .builtin h1 h2 h3 => .builtin h1 h2 h3
  | .truth h1 h2 h3 => .truth h1 h2 h3
  | .qualified h1 h2 h3 h4 => .qualified (mono h1) h2 h3 (mono h4)
  | .starT h1 => .starT (mono h1)
  | .star h1 => .star (mono h1)
  | .addr h1 => .addr (mono h1)
  | .not h1 => .not (mono h1)
  | .paren h1 => .paren (mono h1)
  | .arith h1 h2 => .arith (mono h1) (mono h2)
  | .arithConst h1 h2 => .arithConst (mono h1) (mono h2)
  | .constArith _ h1 h2 => .constArith (fun h => by cases h) (mono h1) (mono h2)
  | .consts _ h1 h2 h3 => .consts (fun h => by cases h) (mono h1) (mono h2) h3
  | .shift h1 h2 => .shift (mono h1) (mono h2)
  | .shiftConst _ h1 h2 h3 => .shiftConst (fun h => by cases h) (mono h1) (mono h2) h3
  | .cmp => .cmp
  | .convert h1 => .convert (mono h1)
  | .call h1 h2 h3 h4 => .call (mono h1) (mono_under h2) h3 (mono h4)
  | .new h1 h2 => .new (mono h1) (mono h2)
  | .make h1 h2 => .make (mono h1) (mono h2)
  | .append h1 h2 => .append (mono h1) (mono h2)
  | .comp h1 => .comp (mono h1)
  | .lit _ h1 => .lit (fun h => by cases h) h1
  | .funcLit => .funcLit
  | .sig => .sig
  | .map h1 h2 => .map (mono h1) (mono h2)
  | .slice h1 => .slice (mono h1)
  | .array => .array
  | .struct => .struct
  | .iface => .iface
  | .chan => .chan
theorem mono_under {T U : GType} : Under P true T U → Under P false T U
  | .named h1 h2 h3 => .named h1 (mono h2) (mono_under h3)
  | .func => .func
end

/-! ### The names of the imports -/

/-- The name number `k` of the file. -/
def nm (w : Str) (k : Nat) : Str := if 0 < k then w ++ '_' :: dec k else w

def pre : Str := "__xgo_var_ref_".toList

/-- One of xgo's names: the number `k`, asked for at some position. -/
def Ours (x : Str) (k : Nat) : Prop := ∃ l c, x = nm (wish l c) k

theorem wish_eq (l c : Nat) : wish l c = pre ++ (dec l ++ '_' :: dec c) := by
  unfold wish pre
  rw [List.append_assoc]

theorem Ours.prefix {x : Str} {k : Nat} (h : Ours x k) : pre <+: x := by
  obtain ⟨l, c, rfl⟩ := h
  unfold nm
  have hw := wish_eq l c
  split
  · exact ⟨dec l ++ '_' :: dec c ++ '_' :: dec k, by rw [hw]; simp⟩
  · exact ⟨dec l ++ '_' :: dec c, by rw [hw]⟩

theorem free_dec (n : Nat) : '_' ∉ dec n := FuncTrap.dec_free (n := n)

theorem dec_inj {m n : Nat} (h : dec m = dec n) : m = n := FuncTrap.dec_inj h

theorem count_wish (l c : Nat) : (wish l c).count '_' = pre.count '_' + 1 := by
  have h1 := List.count_eq_zero_of_not_mem (free_dec l)
  have h2 := List.count_eq_zero_of_not_mem (free_dec c)
  rw [wish_eq, List.count_append, List.count_append, List.count_cons, h1, h2]
  simp

theorem last_cut {a b u v : Str} (hu : '_' ∉ u) (hv : '_' ∉ v) (h : a ++ '_' :: u = b ++ '_' :: v) : u = v := by
  rcases List.append_eq_append_iff.mp h with ⟨z, h1, h2⟩ | ⟨z, h1, h2⟩
  · cases z with
    | nil => simp at h2; exact h2
    | cons y z =>
      injection h2 with h3 h4
      exact absurd (h4 ▸ by simp) hu
  · cases z with
    | nil => simp at h2; exact h2.symm
    | cons y z =>
      injection h2 with h3 h4
      exact absurd (h4 ▸ by simp) hv

theorem Ours.inj {x : Str} {k k' : Nat} (h : Ours x k) (h' : Ours x k') : k = k' := by
  obtain ⟨l, c, h⟩ := h
  obtain ⟨l', c', h'⟩ := h'
  have hc : ∀ l c k, 0 < k → (nm (wish l c) k).count '_' = pre.count '_' + 2 := by
    intro l c k hk
    unfold nm
    rw [if_pos hk, List.count_append, List.count_cons, count_wish, List.count_eq_zero_of_not_mem (free_dec k)]
    simp
  have h0 : ∀ l c, (nm (wish l c) 0).count '_' = pre.count '_' + 1 := by
    intro l c
    unfold nm
    rw [if_neg (by decide), count_wish]
  rcases Nat.eq_zero_or_pos k with hk | hk <;> rcases Nat.eq_zero_or_pos k' with hk' | hk'
  · rw [hk, hk']
  · have e1 := h0 l c
    have e2 := hc l' c' k' hk'
    rw [hk] at h
    rw [← h] at e1; rw [← h', e1] at e2; omega
  · have e1 := hc l c k hk
    have e2 := h0 l' c'
    rw [hk'] at h'
    rw [← h] at e1; rw [← h', e1] at e2; omega
  · rw [h] at h'
    unfold nm at h'
    rw [if_pos hk, if_pos hk'] at h'
    exact dec_inj (last_cut (free_dec _) (free_dec _) h')

/-- `new` (path, name) have been recorded, in that order. -/
inductive Grow (w : Str) : Recorder → List (Str × Str) → Recorder → Prop
  | refl {r} : Grow w r [] r
  | step {r l r' p} : Grow w r l r' → r'.refs.lookup p = none →
      Grow w r (l ++ [(p, nm w r'.num)]) ⟨(p, nm w r'.num) :: r'.refs, r'.num + 1, r'.edits ++ [(p, nm w r'.num)]⟩

theorem Grow.trans {w : Str} {r r' r'' : Recorder} {l l' : List (Str × Str)} (h : Grow w r l r') (h' : Grow w r' l' r'') :
    Grow w r (l ++ l') r'' := by
  induction h' with
  | refl => simpa using h
  | step _ h2 ih => rw [← List.append_assoc]; exact .step ih h2

theorem mem_of_lookup {l : List (Str × Str)} {a b : Str} (h : l.lookup a = some b) : (a, b) ∈ l := by
  induction l with
  | nil => cases h
  | cons x l ih =>
    rw [List.lookup_cons] at h
    split at h
    · rename_i he
      injection h with h
      have := eq_of_beq he
      exact List.mem_cons.mpr (Or.inl (by rw [this, ← h]))
    · exact List.mem_cons_of_mem _ (ih h)

theorem grow_record (r : Recorder) (p w : Str) :
    ∃ l, Grow w r l (r.record p w).2 ∧ (∀ e ∈ l, e.2 = (r.record p w).1) ∧ (p, (r.record p w).1) ∈ (r.record p w).2.refs ∧
      (∀ e ∈ l, e.1 = p) := by
  unfold Recorder.record
  cases h : r.refs.lookup p with
  | some ref =>
    refine ⟨[], .refl, by simp, ?_, by simp⟩
    exact mem_of_lookup h
  | none => exact ⟨_, .step .refl h, by simp [nm], by simp, by simp⟩

theorem Grow.sub {w : Str} {r r' : Recorder} {l : List (Str × Str)} (h : Grow w r l r') : ∀ e ∈ r.refs, e ∈ r'.refs := by
  induction h with
  | refl => exact fun e h => h
  | step _ _ ih => exact fun e h => List.mem_cons_of_mem _ (ih e h)

/-- The file gives the names the meaning the recorder has noted for them. -/
structure FileHas (P : Prog) (p : Str) (env : Env) (refs : List (Str × Str)) : Prop where
  pkg : env.pkg = p
  proper : env.xtest = false
  refs : ∀ e ∈ refs, P p false e.2 = none ∧ env.imports.lookup e.2 = some e.1
  types : ∀ x, Predeclared x → P p false x = none ∧ env.imports.lookup x = none

theorem FileHas.mono {p : Str} {env : Env} {a b : List (Str × Str)} (h : FileHas P p env b) (hs : ∀ e ∈ a, e ∈ b) : FileHas P p env a :=
  ⟨h.pkg, h.proper, fun e he => h.refs e (hs e he), h.types⟩

theorem joinComma_eq : ∀ l, joinComma l = commas l := by
  intro l
  induction l with
  | nil => rfl
  | cons a l ih => cases l with
    | nil => rfl
    | cons b l => rw [joinComma, commas, ih]; intro h; cases h

def UseOk (P : Prog) (seen : Seen) (u : Use) (n : Nat) : Prop :=
  ∀ r t, ∃ l, Grow (wish u.line u.col) r l (useType P seen u n r t).2 ∧ (∀ e ∈ l, e.1 ≠ u.pkg) ∧
    ∀ c, (useType P seen u n r t).1 = some c → ∃ f : Form, c = f.print ∧ (∀ e ∈ l, e.2 ∈ f.quals) ∧
      (∀ q ∈ f.quals, ∃ p, (p, q) ∈ (useType P seen u n r t).2.refs) ∧
      ∀ T env, ProgOk P → SeenOk P seen → FileHas P u.pkg env (useType P seen u n r t).2.refs → Rep P t T → Is P false env f.expr (.type T)

def AllOk (P : Prog) (seen : Seen) (u : Use) (n : Nat) : Prop :=
  ∀ r s rs, ∃ l, Grow (wish u.line u.col) r l (useAll P seen u n r s rs).2 ∧ (∀ e ∈ l, e.1 ≠ u.pkg) ∧
    ∀ cs, (useAll P seen u n r s rs).1 = some cs → ∃ fs : Forms, cs = fs.print ∧ (∀ e ∈ l, e.2 ∈ fs.quals) ∧
      (∀ q ∈ fs.quals, ∃ p, (p, q) ∈ (useAll P seen u n r s rs).2.refs) ∧ (rs ≠ .nil → fs ≠ .nil)

theorem all_step {u : Use} {n : Nat} (hu : UseOk P seen u n) (ha : AllOk P seen u n) : AllOk P seen u (n + 1) := by
  intro r s rs
  cases rs with
  | nil => rw [useAll]; exact ⟨[], .refl, by simp, fun cs h => ⟨.nil, by cases h; rfl, by simp, by simp [Forms.quals], by simp⟩⟩
  | cons m e rest =>
    rw [useAll]
    obtain ⟨l1, g1, o1, k1⟩ := hu r (.lazy s e)
    generalize hq : useType P seen u n r (.lazy s e) = q at g1 k1
    obtain ⟨c, r1⟩ := q
    cases c with
    | none => exact ⟨l1, g1, o1, fun cs h => by cases h⟩
    | some c =>
      obtain ⟨f, e1, q1, p1, _⟩ := k1 c rfl
      obtain ⟨l2, g2, o2, k2⟩ := ha r1 s rest
      simp only
      generalize hq' : useAll P seen u n r1 s rest = q at g2 k2
      obtain ⟨cs, r2⟩ := q
      have ho : ∀ e ∈ l1 ++ l2, e.1 ≠ u.pkg := fun e he => (List.mem_append.mp he).elim (o1 e) (o2 e)
      cases cs with
      | none => exact ⟨l1 ++ l2, g1.trans g2, ho, fun cs h => by cases h⟩
      | some cs =>
        obtain ⟨fs, e2, q2, p2, _⟩ := k2 cs rfl
        refine ⟨l1 ++ l2, g1.trans g2, ho, fun cs' h => ⟨.cons f fs, ?_, ?_, ?_, by simp⟩⟩
        · injection h with h; rw [← h, e1, e2]; rfl
        · intro e he
          rw [Forms.quals]
          exact List.mem_append.mpr ((List.mem_append.mp he).imp (q1 e) (q2 e))
        · intro q hq
          rw [Forms.quals] at hq
          rcases List.mem_append.mp hq with h | h
          · obtain ⟨p, hp⟩ := p1 q h; exact ⟨p, g2.sub _ hp⟩
          · exact p2 q h

theorem exported_ok {x : Str} (h : exported x = true) : isExported x = true := by
  cases x with
  | nil => cases h
  | cons c x =>
    have h' : c.isUpper = true := h
    simp only [Char.isUpper, Bool.and_eq_true, decide_eq_true_eq] at h'
    simp only [isExported, List.head?_cons, Option.any_some, Bool.and_eq_true, decide_eq_true_eq]
    exact ⟨h'.1, h'.2⟩

theorem use_step {u : Use} {n : Nat} (hu : UseOk P seen u n) (ha : AllOk P seen u n) : UseOk P seen u (n + 1) := by
  intro r t
  have fail : ∀ c : Str, ((none : Option Str), r).1 = some c → False := fun c h => by cases h
  cases t with
  | basic b =>
    rw [useType]
    refine ⟨[], .refl, by simp, fun c h => ⟨.name b, by cases h; rfl, by simp, by simp [Form.quals], ?_⟩⟩
    rintro T env - - hf ⟨b', h1, rfl⟩
    have := hf.types b (Or.inl (by rw [h1]; rfl))
    obtain ⟨pkg, xt, imports⟩ := env
    have e1 : pkg = u.pkg := hf.pkg
    have e2 : xt = false := hf.proper
    subst e1; subst e2
    exact .basic this.1 this.2 h1
  | named p x t =>
    rw [useType]
    by_cases hp : p = u.pkg
    · rw [if_pos hp]
      refine ⟨[], .refl, by simp, fun c h => ⟨.name x, by cases h; rfl, by simp, by simp [Form.quals], ?_⟩⟩
      rintro T env - - hf ⟨a, e, im, h1, h2, h3, -⟩
      obtain ⟨pkg, xt, imports⟩ := env
      have e1 : pkg = u.pkg := hf.pkg
      have e2 : xt = false := hf.proper
      subst e2
      rw [hp, ← e1] at h1 h2 h3
      cases a with
      | false => rw [h2 rfl]; exact .defined h1
      | true => exact .alias h1 (VarType.mono (h3 rfl))
    rw [if_neg hp]
    by_cases hx : exported x = false
    · rw [if_pos hx]; exact ⟨[], .refl, by simp, fun c h => by cases h⟩
    rw [if_neg hx]
    obtain ⟨l, g1, g2, g3, g4⟩ := grow_record r p (wish u.line u.col)
    generalize r.record p (wish u.line u.col) = q at g1 g2 g3
    obtain ⟨ref, r'⟩ := q
    refine ⟨l, g1, fun e he => by rw [g4 e he]; exact hp, fun c h => ⟨.qual ref x, by cases h; rfl, ?_, ?_, ?_⟩⟩
    · intro e he; rw [g2 e he]; simp [Form.quals]
    · intro q hq; rw [Form.quals, List.mem_singleton] at hq; rw [hq]; exact ⟨p, g3⟩
    · rintro T env - - hf ⟨a, e, im, h1, h2, h3, -⟩
      obtain ⟨pkg, xt, imports⟩ := env
      have e1 : pkg = u.pkg := hf.pkg
      have e2 : xt = false := hf.proper
      subst e2
      obtain ⟨f1, f2⟩ := hf.refs _ g3
      have hi : Is P false ⟨pkg, false, imports⟩ (.ident ref) (.pkg p) := .imported (by rw [e1]; exact f1) f2
      refine .qualified hi (exported_ok (by simpa using hx)) h1 ?_
      cases a with
      | false => rw [h2 rfl]; exact Is.defined (env := ⟨p, false, im⟩) h1
      | true => exact Is.alias (env := ⟨p, false, im⟩) h1 (VarType.mono (h3 rfl))
  | ptr t =>
    rw [useType]
    obtain ⟨l, g1, o1, k1⟩ := hu r t
    generalize useType P seen u n r t = q at g1 k1
    obtain ⟨c, r1⟩ := q
    cases c with
    | none => exact ⟨l, g1, o1, fun cs h => by cases h⟩
    | some c =>
      obtain ⟨f, e1, q1, p1, m1⟩ := k1 c rfl
      refine ⟨l, g1, o1, fun c h => ⟨.ptr f, by cases h; rw [e1]; rfl, q1, p1, ?_⟩⟩
      rintro T env hP hS hf ⟨T', rfl, hr⟩
      exact .starT (m1 T' env hP hS hf hr)
  | slice t =>
    rw [useType]
    obtain ⟨l, g1, o1, k1⟩ := hu r t
    generalize useType P seen u n r t = q at g1 k1
    obtain ⟨c, r1⟩ := q
    cases c with
    | none => exact ⟨l, g1, o1, fun cs h => by cases h⟩
    | some c =>
      obtain ⟨f, e1, q1, p1, m1⟩ := k1 c rfl
      refine ⟨l, g1, o1, fun c h => ⟨.slice f, by cases h; rw [e1]; rfl, q1, p1, ?_⟩⟩
      rintro T env hP hS hf ⟨T', rfl, hr⟩
      exact .slice (m1 T' env hP hS hf hr)
  | map k v =>
    rw [useType]
    obtain ⟨l1, g1, o1, k1⟩ := hu r k
    generalize useType P seen u n r k = q at g1 k1
    obtain ⟨c, r1⟩ := q
    cases c with
    | none => exact ⟨l1, g1, o1, fun cs h => by cases h⟩
    | some c =>
      simp only
      obtain ⟨f, e1, q1, p1, m1⟩ := k1 c rfl
      obtain ⟨l2, g2, o2, k2⟩ := hu r1 v
      generalize useType P seen u n r1 v = q at g2 k2
      obtain ⟨c', r2⟩ := q
      have ho : ∀ e ∈ l1 ++ l2, e.1 ≠ u.pkg := fun e he => (List.mem_append.mp he).elim (o1 e) (o2 e)
      cases c' with
      | none => exact ⟨l1 ++ l2, g1.trans g2, ho, fun cs h => by cases h⟩
      | some c' =>
        obtain ⟨f', e2, q2, p2, m2⟩ := k2 c' rfl
        refine ⟨l1 ++ l2, g1.trans g2, ho, fun cs' h => ⟨.map f f', ?_, ?_, ?_, ?_⟩⟩
        · injection h with h; rw [← h, e1, e2]; rfl
        · intro e he
          rw [Form.quals]
          exact List.mem_append.mpr ((List.mem_append.mp he).imp (q1 e) (q2 e))
        · intro q hq
          rw [Form.quals] at hq
          rcases List.mem_append.mp hq with h | h
          · obtain ⟨p, hp⟩ := p1 q h; exact ⟨p, g2.sub _ hp⟩
          · exact p2 q h
        · rintro T env hP hS hf ⟨K, V, rfl, hk, hv⟩
          exact .map (m1 K env hP hS (hf.mono g2.sub) hk) (m2 V env hP hS hf hv)
  | lazy s e =>
    rw [useType]
    obtain ⟨l, g1, o1, k1⟩ := hu r (resolve P seen n s e).asType
    refine ⟨l, g1, o1, fun c h => ?_⟩
    obtain ⟨f, e1, q1, p1, m1⟩ := k1 c h
    refine ⟨f, e1, q1, p1, ?_⟩
    rintro T env hP hS hf ⟨env', h1, h2⟩
    exact m1 T env hP hS hf ((resolve_ok hP hS n).1 _ _ _ _ h1 h2).asType
  | tuple s rs =>
    rw [useType.eq_def]
    simp only
    split
    · exact ⟨[], .refl, by simp, fun c h => ⟨.tuple .nil, by cases h; rfl, by simp, by simp [Form.quals, Forms.quals], fun _ _ _ _ _ h => h.elim⟩⟩
    · rename_i m e
      obtain ⟨l, g1, o1, k1⟩ := hu r (.lazy s e)
      refine ⟨l, g1, o1, fun c h => ?_⟩
      obtain ⟨f, e1, q1, p1, m1⟩ := k1 c h
      exact ⟨f, e1, q1, p1, fun _ _ _ _ _ h => h.elim⟩
    · rename_i rs2 h1 h2
      obtain ⟨l, g1, o1, k1⟩ := ha r s rs
      generalize useAll P seen u n r s rs = q at g1 k1
      obtain ⟨c, r1⟩ := q
      cases c with
      | none => exact ⟨l, g1, o1, fun cs h => by cases h⟩
      | some c =>
        obtain ⟨fs, e1, q1, p1, z1⟩ := k1 c rfl
        refine ⟨l, g1, o1, fun c h => ⟨.tuple fs, ?_, q1, p1, fun _ _ _ _ _ h => h.elim⟩⟩
        have hz := z1 h1
        cases fs with
        | nil => exact absurd rfl hz
        | cons f fs => injection h with h; rw [← h, e1, joinComma_eq]; rfl
  | _ => rw [useType.eq_def]; exact ⟨[], .refl, by simp, fun c h => by cases h⟩

theorem use_ok (u : Use) : ∀ n, UseOk P seen u n ∧ AllOk P seen u n := by
  intro n
  induction n with
  | zero =>
    exact ⟨fun r t => by rw [useType]; exact ⟨[], .refl, by simp, fun c h => by cases h⟩,
      fun r s rs => by rw [useAll]; exact ⟨[], .refl, by simp, fun c h => by cases h⟩⟩
  | succ n ih => exact ⟨use_step ih.1 ih.2, all_step ih.1 ih.2⟩

/-! ### All variables of the file -/

/-- Between two variables. -/
structure Inv (r : Recorder) : Prop where
  paths : (r.refs.map Prod.fst).Nodup
  names : (r.refs.map Prod.snd).Nodup
  ours : ∀ e ∈ r.refs, ∃ k, k < r.num ∧ Ours e.2 k

theorem Grow.inv {l c : Nat} {r r' : Recorder} {new : List (Str × Str)} (h : Grow (wish l c) r new r') (hr : Inv r) :
    Inv r' ∧ r'.refs = new.reverse ++ r.refs ∧ r'.edits = r.edits ++ new := by
  induction h with
  | refl => exact ⟨hr, by simp, by simp⟩
  | @step l' r1 q _ h2 ih =>
    obtain ⟨h1, h3, h4⟩ := ih
    refine ⟨⟨?_, ?_, ?_⟩, by simp [h3], by simp [h4]⟩
    · simp only [List.map_cons, List.nodup_cons]
      refine ⟨fun hm => ?_, h1.paths⟩
      obtain ⟨e, he, rfl⟩ := List.mem_map.mp hm
      have := List.lookup_eq_none_iff.mp h2 e he
      simp at this
    · simp only [List.map_cons, List.nodup_cons]
      refine ⟨fun hm => ?_, h1.names⟩
      obtain ⟨e, he, hn⟩ := List.mem_map.mp hm
      obtain ⟨k, hk, ho⟩ := h1.ours e he
      have : k = r1.num := ho.inj ⟨l, c, hn⟩
      omega
    · intro e he
      rcases List.mem_cons.mp he with rfl | he
      · exact ⟨r1.num, Nat.lt_succ_self _, l, c, rfl⟩
      · obtain ⟨k, hk, ho⟩ := h1.ours e he
        exact ⟨k, by simp only; omega, ho⟩

theorem cancel_refs {r r' : Recorder} {l c : Nat} {new : List (Str × Str)} (h : Grow (wish l c) r new r') (hr : Inv r) (he : r.edits = []) :
    r'.cancel.refs = r.refs := by
  obtain ⟨h1, h2, h3⟩ := h.inv hr
  have hp := h1.paths
  unfold Recorder.cancel
  simp only [h2, h3, he, List.nil_append]
  rw [h2, List.map_append, List.map_reverse] at hp
  obtain ⟨-, -, hd⟩ := List.nodup_append.mp hp
  rw [List.filter_append, List.filter_eq_nil_iff.mpr, List.filter_eq_self.mpr]
  · rfl
  · intro e he
    simp only [Bool.not_eq_true', List.any_eq_false]
    intro e' he' hh
    exact hd e'.1 (by simpa using ⟨e'.2, he'⟩) e.1 (List.mem_map.mpr ⟨e, he, rfl⟩) (eq_of_beq hh)
  · intro e he
    simp only [Bool.not_eq_true', Bool.not_eq_false, List.any_eq_true]
    exact ⟨e, by simpa using he, by simp⟩

def swap (e : Str × Str) : Str × Str := (e.2, e.1)

theorem print_nil : ∀ f : Form, f.print = [] → f.quals = []
  | .name _, _ => rfl
  | .qual r x, h => by rw [Form.print] at h; simp at h
  | .ptr f, h => by rw [Form.print] at h; cases h
  | .slice f, h => by rw [Form.print] at h; cases h
  | .map k v, h => by rw [Form.print] at h; cases h
  | .tuple .nil, _ => rfl
  | .tuple (.cons f fs), h => by rw [Form.print] at h; cases h; intro h; cases h

/-- What is right about the code of a variable, the imports it adds, and the recorder after it. -/
def GetterOk (P : Prog) (seen : Seen) (p : Str) (x : Var) (r : Recorder) (code : Option Code) (im : List (Str × Str)) (r' : Recorder) : Prop :=
  ∃ l, im = l.map swap ∧ Inv r' ∧ r'.edits = [] ∧ r'.refs = l.reverse ++ r.refs ∧ (∀ e ∈ l, e.1 ≠ p) ∧
    ((∀ c, code ≠ some (.text c)) → l = []) ∧
    ∀ c, code = some (.text c) → ∃ f : Form, c = f.print ∧ (∀ e ∈ l, e.2 ∈ f.quals) ∧ (∀ q ∈ f.quals, ∃ p', (p', q) ∈ r'.refs) ∧
      ∀ T env, ProgOk P → SeenOk P seen → (∃ d, P p false x.name = some d) → VarIs P true p false x.name T → FileHas P p env r'.refs →
        Is P false env f.expr (.type T)

theorem getter_silent {p : Str} {x : Var} {r r' : Recorder} {c : Option Code} (hc : ∀ t, c ≠ some (.text t)) (hi : Inv r')
    (he : r'.edits = []) (hr : r'.refs = r.refs) : GetterOk P seen p x r c [] r' :=
  ⟨[], rfl, hi, he, hr, by simp, fun _ => rfl, fun t ht => absurd ht (hc t)⟩

theorem valueType_rep {n : Nat} {p x : Str} {e : Expr} {t : Ty} {m : Bool} {i : Nat} {im : Imports} {T : GType} (hP : ProgOk P)
    (hs : SeenOk P seen) (h : P p false x = some ⟨.var false none (some e) m i, im⟩) (hv : valueType P seen n p x e = some t)
    (hT : VarIs P true p false x T) : Rep P t T := by
  obtain ⟨im', hT⟩ := hT
  have key : ∀ w, Is P true ⟨p, false, im⟩ e (.val w) → Rep P t w.default := by
    intro w hw
    have hne : Near P (seen p x) ⟨p, false, im⟩ (names e) :=
      (near_seen hP hs h).sub (fun y hy => by simp [declNames, optNames, hy])
    unfold valueType at hv
    rcases ((resolve_ok hP hs n).1 _ _ _ _ hne hw).val with hh | ⟨o, hh, hr, -⟩
    · rw [hh] at hv; cases hv
    · rw [hh] at hv
      simp only at hv
      split at hv
      · cases hv
      · injection hv with hv; rw [← hv]; exact hr
  cases hT with
  | declared h1 => simp only at h1; rw [h] at h1; cases h1
  | @var _ _ e' im2 w h1 h2 =>
    simp only at h1 h2
    rw [h] at h1
    cases h1
    exact key w h2
  | vars h0 => cases h0
  | const h1 => simp only at h1; rw [h] at h1; cases h1
  | func h1 => simp only at h1; rw [h] at h1; cases h1

/-- A variable of the file. -/
theorem getter_ok (n : Nat) (p : Str) (x : Var) {r : Recorder} (hr : Inv r) (he : r.edits = []) :
    GetterOk P seen p x r (getter P seen n p r x).1 (getter P seen n p r x).2.1 (getter P seen n p r x).2.2 := by
  have silent : GetterOk P seen p x r none [] r := getter_silent (fun t h => by cases h) hr he rfl
  have source : ∀ e, GetterOk P seen p x r (some (.source e)) [] r := fun e => getter_silent (fun t h => by cases h) hr he rfl
  unfold getter
  split
  · exact source _
  · rename_i v m i im0 htab
    split
    · exact silent
    · exact source _
    · rename_i v' hv' hv
      split
      · exact silent
      · rename_i t ht
        obtain ⟨l, g1, g2, g3⟩ := (use_ok (P := P) (seen := seen) ⟨p, x.line, x.col⟩ n).1 { r with edits := [] } t
        have hr' : Inv { r with edits := [] } := ⟨hr.paths, hr.names, hr.ours⟩
        obtain ⟨i1, i2, i3⟩ := g1.inv hr'
        generalize useType P seen ⟨p, x.line, x.col⟩ n { r with edits := [] } t = q at g1 g3 i1 i2 i3
        obtain ⟨c, r'⟩ := q
        cases c with
        | none =>
          have hc := cancel_refs g1 hr' rfl
          refine getter_silent (fun t h => by cases h) ?_ rfl hc
          refine ⟨by rw [hc]; exact hr.paths, by rw [hc]; exact hr.names, fun e he => ?_⟩
          simp only at hc he ⊢
          rw [hc] at he
          exact i1.ours e (g1.sub e he)
        | some c =>
          obtain ⟨f, e1, q1, p1, m1⟩ := g3 c rfl
          simp only at i1 i2 i3
          refine ⟨l, ?_, ⟨i1.paths, i1.names, i1.ours⟩, rfl, i2, g2, ?_, ?_⟩
          · simp only; rw [i3]; rfl
          · intro hn
            simp only at hn
            by_cases hc : c = []
            · rw [hc] at e1
              have := print_nil f e1.symm
              cases l with
              | nil => rfl
              | cons e l => have := q1 e (by simp); rw [print_nil f e1.symm] at this; cases this
            · rw [if_neg hc] at hn; exact absurd rfl (hn c)
          · intro c' hc'
            simp only at hc'
            by_cases hc : c = []
            · rw [if_pos hc] at hc'; cases hc'
            · rw [if_neg hc] at hc'
              injection hc' with hc'
              injection hc' with hc'
              subst hc'
              refine ⟨f, e1, q1, p1, ?_⟩
              rintro T env hP hs ⟨d, hd⟩ hT hf
              have hd' := table_proper hP hd
              rw [htab] at hd'
              injection hd' with hd'
              rw [← hd'] at hd
              unfold DeclKind.value at hv
              simp only at hv
              split at hv
              · rw [hv] at hd
                exact m1 T env hP hs hf (valueType_rep hP hs hd ht hT)
              · cases hv
  · exact silent

theorem commas_infix : ∀ (l : List Str) (c : Str), c ∈ l → c <:+: commas l := by
  intro l
  induction l with
  | nil => intro c h; cases h
  | cons a l ih =>
    intro c h
    cases l with
    | nil => rw [List.mem_singleton] at h; rw [h]; exact ⟨[], [], by simp [commas]⟩
    | cons b l =>
      rw [commas]
      · rcases List.mem_cons.mp h with h | h
        · rw [h, List.append_assoc]; exact ⟨[], _, rfl⟩
        · obtain ⟨u, v, hu⟩ := ih c h
          exact ⟨a ++ ", ".toList ++ u, v, by rw [← hu]; simp⟩
      · intro h; cases h

mutual
theorem quals_infix : ∀ (f : Form) (q : Str), q ∈ f.quals → (q ++ ['.']) <:+: f.print
  | .name _, q, h => by cases h
  | .qual r x, q, h => by
    rw [Form.quals, List.mem_singleton] at h
    rw [h, Form.print]
    exact ⟨[], x, by simp⟩
  | .ptr f, q, h => by
    obtain ⟨u, v, hu⟩ := quals_infix f q h
    rw [Form.print, ← hu]
    exact ⟨'*' :: u, v, by simp⟩
  | .slice f, q, h => by
    obtain ⟨u, v, hu⟩ := quals_infix f q h
    rw [Form.print, ← hu]
    exact ⟨"[]".toList ++ u, v, by simp⟩
  | .map k v, q, h => by
    rw [Form.quals] at h
    rw [Form.print]
    rcases List.mem_append.mp h with h | h
    · obtain ⟨a, b, hu⟩ := quals_infix k q h
      exact ⟨"map[".toList ++ a, b ++ ']' :: v.print, by rw [← hu]; simp⟩
    · obtain ⟨a, b, hu⟩ := quals_infix v q h
      exact ⟨"map[".toList ++ k.print ++ ']' :: a, b, by rw [← hu]; simp⟩
  | .tuple .nil, q, h => by cases h
  | .tuple (.cons f fs), q, h => by
    obtain ⟨c, hc, hi⟩ := forms_infix (.cons f fs) q h
    rw [Form.print]
    · obtain ⟨a, b, hu⟩ := hi.trans (commas_infix _ c hc)
      exact ⟨'(' :: a, b ++ ")".toList, by rw [← hu]; simp⟩
    · intro h; cases h
theorem forms_infix : ∀ (fs : Forms) (q : Str), q ∈ fs.quals → ∃ c ∈ fs.print, (q ++ ['.']) <:+: c
  | .nil, q, h => by cases h
  | .cons f fs, q, h => by
    rw [Forms.quals] at h
    rw [Forms.print]
    rcases List.mem_append.mp h with h | h
    · exact ⟨_, List.mem_cons_self, quals_infix f q h⟩
    · obtain ⟨c, hc, hi⟩ := forms_infix fs q h
      exact ⟨c, List.mem_cons_of_mem _ hc, hi⟩
end

theorem getters_ok (n : Nat) (p : Str) : ∀ (xs : List Var) (r : Recorder), Inv r → r.edits = [] →
    ∃ (rf : Recorder) (l : List (Str × Str)), Inv rf ∧ (getters P seen n p r xs).2 = l.map swap ∧ rf.refs = l.reverse ++ r.refs ∧
      (∀ e ∈ l, e.1 ≠ p ∧ ∃ x, ∃ f : Form, (x, some (.text f.print)) ∈ (getters P seen n p r xs).1 ∧ e.2 ∈ f.quals) ∧
      ∀ x c, (x, some (.text c)) ∈ (getters P seen n p r xs).1 → ∃ f : Form, c = f.print ∧ (∀ q ∈ f.quals, ∃ p', (p', q) ∈ rf.refs) ∧
        ∀ T env, ProgOk P → SeenOk P seen → (∃ d, P p false x.name = some d) → VarIs P true p false x.name T → FileHas P p env rf.refs →
          Is P false env f.expr (.type T) := by
  intro xs
  induction xs with
  | nil => intro r hr he; exact ⟨r, [], hr, rfl, rfl, by simp, fun x c h => by cases h⟩
  | cons x xs ih =>
    intro r hr he
    obtain ⟨l1, a1, a2, a3, a4, a5, a6, a7⟩ := getter_ok (P := P) (seen := seen) n p x hr he
    obtain ⟨rf, l2, b1, b2, b3, b4, b5⟩ := ih _ a2 a3
    rw [getters]
    generalize getter P seen n p r x = g at a1 a2 a3 a4 a6 a7 b2 b3 b4 b5
    obtain ⟨code, im, r1⟩ := g
    simp only at a1 a2 a3 a4 a6 a7 b2 b3 b4 b5 ⊢
    have hsub : ∀ e ∈ r1.refs, e ∈ rf.refs := fun e he => by rw [b3]; exact List.mem_append.mpr (Or.inr he)
    refine ⟨rf, l1 ++ l2, b1, by rw [a1, b2, List.map_append], by rw [b3, a4]; simp, ?_, ?_⟩
    · intro e he
      rcases List.mem_append.mp he with h | h
      · refine ⟨a5 e h, ?_⟩
        cases hc : code with
        | none => rw [a6 (fun c h => by rw [hc] at h; cases h)] at h; cases h
        | some cd => cases cd with
          | source e => rw [a6 (fun c h => by rw [hc] at h; cases h)] at h; cases h
          | text c =>
            obtain ⟨f, f1, f2, -⟩ := a7 c hc
            exact ⟨x, f, by rw [← f1]; exact List.mem_cons_self, f2 e h⟩
      · obtain ⟨h1, x', f, h2, h3⟩ := b4 e h
        exact ⟨h1, x', f, List.mem_cons_of_mem _ h2, h3⟩
    · intro x' c h
      rcases List.mem_cons.mp h with h | h
      · injection h with h1 h2
        subst h1
        obtain ⟨f, f1, f2, f3, f4⟩ := a7 c h2.symm
        refine ⟨f, f1, fun q hq => ?_, fun T env hP hs hd hT hf => f4 T env hP hs hd hT (hf.mono hsub)⟩
        obtain ⟨p', hp'⟩ := f3 q hq
        exact ⟨p', hsub _ hp'⟩
      · exact b5 x' c h

/-- The imports xgo adds to a file for the types of its variables: each has its own name (one of xgo's) and its own path, not that
    of the package, and is used in the text of a type; and there is one for every package a text refers to. Whatever the program
    and the variables are. -/
theorem C73_imports (P : Prog) (seen : Seen) (n : Nat) (p : Str) (xs : List Var) :
    ((getters P seen n p {} xs).2.map Prod.fst).Nodup ∧ ((getters P seen n p {} xs).2.map Prod.snd).Nodup ∧
    (∀ e ∈ (getters P seen n p {} xs).2, e.2 ≠ p ∧ "__xgo_var_ref_".toList <+: e.1 ∧
      ∃ x c, (x, some (.text c)) ∈ (getters P seen n p {} xs).1 ∧ (e.1 ++ ['.']) <:+: c) ∧
    (∀ x c, (x, some (.text c)) ∈ (getters P seen n p {} xs).1 → ∃ f : Form, c = f.print ∧
      ∀ q ∈ f.quals, q ∈ (getters P seen n p {} xs).2.map Prod.fst) := by
  obtain ⟨rf, l, h1, h2, h3, h4, h5⟩ := getters_ok (P := P) (seen := seen) n p xs {} ⟨by simp, by simp, by simp⟩ rfl
  simp only [List.append_nil] at h3
  have e1 : (l.map swap).map Prod.fst = l.map Prod.snd := by rw [List.map_map]; rfl
  have e2 : (l.map swap).map Prod.snd = l.map Prod.fst := by rw [List.map_map]; rfl
  rw [h2, e1, e2]
  have n1 := h1.names
  have n2 := h1.paths
  rw [h3, List.map_reverse, List.nodup_reverse] at n1 n2
  refine ⟨n1, n2, ?_, ?_⟩
  · intro e he
    obtain ⟨e', he', rfl⟩ := List.mem_map.mp he
    obtain ⟨k1, x, f, k2, k3⟩ := h4 e' he'
    obtain ⟨k, -, ho⟩ := h1.ours e' (by rw [h3]; simpa using he')
    exact ⟨k1, ho.prefix, x, _, k2, quals_infix f _ k3⟩
  · intro x c h
    obtain ⟨f, f1, f2, -⟩ := h5 x c h
    refine ⟨f, f1, fun q hq => ?_⟩
    obtain ⟨p', hp'⟩ := f2 q hq
    rw [h3, List.mem_reverse] at hp'
    exact List.mem_map.mpr ⟨_, hp', rfl⟩

/-! ### The types -/

theorem source_ok {n : Nat} {p : Str} {x : Var} {r : Recorder} {e : Expr} {k : DeclKind} {im : Imports} {T : GType} {b : Bool} (hP : ProgOk P)
    (hd : P p false x.name = some ⟨k, im⟩) (h : (getter P seen n p r x).1 = some (.source e)) (hT : VarIs P b p false x.name T) :
    Is P b ⟨p, false, im⟩ e (.type T) := by
  obtain ⟨im', hT⟩ := hT
  unfold getter at h
  rw [table_proper hP hd] at h
  split at h
  · rename_i e' v m i im2 he
    injection he with he
    rw [he] at hd
    simp only [Option.some.injEq, Code.source.injEq] at h
    subst h
    have him : im2 = im := by injection he with _ h; exact h.symm
    subst him
    cases hT with
    | declared h1 h2 =>
      simp only at h1 h2
      rw [hd] at h1
      cases h1
      exact h2
    | var h1 => simp only at h1; rw [hd] at h1; cases h1
    | vars _ h1 => simp only at h1; rw [hd] at h1; cases h1
    | const h1 => simp only at h1; rw [hd] at h1; cases h1
    | func h1 => simp only at h1; rw [hd] at h1; cases h1
  · rename_i v m i im2 he
    injection he with he
    rw [he] at hd
    have him : im2 = im := by injection he with _ h; exact h.symm
    subst him
    split at h
    · cases h
    · rename_i rs hv
      simp only [Option.some.injEq, Code.source.injEq] at h
      subst h
      have hvv : v = some (.func rs) := by
        unfold DeclKind.value at hv
        simp only at hv
        split at hv
        · exact hv
        · cases hv
      rw [hvv] at hd
      cases hT with
      | declared h1 h2 => simp only at h1; rw [hd] at h1; cases h1
      | var h1 h2 =>
        simp only at h1 h2
        rw [hd] at h1
        cases h1
        cases h2
        exact .sig
      | vars _ h1 => simp only at h1; rw [hd] at h1; cases h1
      | const h1 => simp only at h1; rw [hd] at h1; cases h1
      | func h1 => simp only at h1; rw [hd] at h1; cases h1
    · split at h
      · cases h
      · split at h
        · cases h
        · simp only at h
          split at h <;> cases h
  · cases h

theorem predeclared_pre {x : Str} (h : Predeclared x) : ¬ pre <+: x := by
  intro hp
  have hh : x.head? = some '_' := by obtain ⟨t, rfl⟩ := hp; rfl
  have h1 : ∀ x ∈ builtins, x.head? ≠ some '_' := by decide +kernel
  have h2 : ∀ x ∈ (["string", "int", "int8", "int16", "int32", "int64", "uint", "uint8", "uint16", "uint32", "uint64", "uintptr", "float32",
      "float64", "bool", "complex64", "complex128", "error", "any", "comparable"].map (·.toList)), x.head? ≠ some '_' := by decide +kernel
  rcases h with h | h | h | h | h
  · unfold predeclaredType at h
    split at h
    · rename_i e; rw [e] at hh; cases hh
    · split at h
      · rename_i e; rw [e] at hh; cases hh
      · split at h
        · rename_i e; exact h2 x (by simpa using e) hh
        · cases h
  · exact h1 x h hh
  · rw [h] at hh; cases hh
  · rw [h] at hh; cases hh
  · rw [h] at hh; cases hh

theorem lookup_added {added : Imports} (ha : ∀ e ∈ added, pre <+: e.1) {x : Str} (hx : ¬ pre <+: x) : added.lookup x = none := by
  rw [List.lookup_eq_none_iff]
  intro e he
  rw [bne_iff_ne]
  intro h
  exact hx (by rw [h]; exact ha e he)

/-- A type expression means the same in the file that has got imports under new names. -/
theorem weaken {p : Str} {im added : Imports} (ha : ∀ e ∈ added, pre <+: e.1) (hf : FileOk P p im) {b : Bool} :
    ∀ (e : Expr) (T : GType), Is P b ⟨p, false, im⟩ e (.type T) → ∃ T', Same added T T' ∧ Is P b ⟨p, false, added ++ im⟩ e (.type T')
  | .ident x, T, h => by
    cases h with
    | «alias» h1 h2 => exact ⟨_, .refl, .alias h1 h2⟩
    | defined h1 => exact ⟨_, .refl, .defined h1⟩
    | basic h1 h2 h3 =>
      refine ⟨_, .refl, .basic h1 ?_ h3⟩
      simp only at h2 ⊢
      rw [List.lookup_append, h2, Option.or_none]
      exact lookup_added ha (fun hp => predeclared_pre (Or.inl (by rw [h3]; rfl)) hp)
  | .sel x f, T, h => by
    cases h with
    | qualified h1 h2 h3 h4 =>
      cases h1 with
      | imported g1 g2 =>
        refine ⟨_, .refl, .qualified (.imported g1 ?_) h2 h3 h4⟩
        simp only at g2 ⊢
        rw [List.lookup_append, lookup_added ha (fun hp => by rw [(hf.fresh x hp).2] at g2; cases g2)]
        exact g2
  | .star e, T, h => by
    cases h with
    | starT h1 => obtain ⟨T', s1, s2⟩ := weaken ha hf e _ h1; exact ⟨_, .ptr s1, .starT s2⟩
  | .paren e, T, h => by
    cases h with
    | paren h1 => obtain ⟨T', s1, s2⟩ := weaken ha hf e _ h1; exact ⟨_, s1, .paren s2⟩
  | .funcT rs, T, h => by cases h; exact ⟨_, .func, .sig⟩
  | .mapT k v, T, h => by
    cases h with
    | map h1 h2 =>
      obtain ⟨T', s1, s2⟩ := weaken ha hf k _ h1
      obtain ⟨T'', s3, s4⟩ := weaken ha hf v _ h2
      exact ⟨_, .map s1 s3, .map s2 s4⟩
  | .arrayT c e, T, h => by
    cases h with
    | slice h1 => obtain ⟨T', s1, s2⟩ := weaken ha hf e _ h1; exact ⟨_, .slice s1, .slice s2⟩
    | array => exact ⟨_, .lit, .array⟩
  | .structT, T, h => by cases h; exact ⟨_, .lit, .struct⟩
  | .ifaceT, T, h => by cases h; exact ⟨_, .lit, .iface⟩
  | .chanT, T, h => by cases h; exact ⟨_, .lit, .chan⟩
  | .addr e, T, h => by cases h
  | .not e, T, h => by cases h
  | .binary o x y, T, h => by cases h
  | .call f a, T, h => by cases h
  | .comp e, T, h => by cases h
  | .lit k, T, h => by cases h
  | .func rs, T, h => by cases h
  | .other, T, h => by cases h

theorem lookup_nodup {l : List (Str × Str)} (hn : (l.map Prod.fst).Nodup) {e : Str × Str} (he : e ∈ l) : l.lookup e.1 = some e.2 := by
  induction l with
  | nil => cases he
  | cons x l ih =>
    rw [List.map_cons, List.nodup_cons] at hn
    rw [List.lookup_cons]
    rcases List.mem_cons.mp he with h | h
    · rw [h]; simp
    · have : (e.1 == x.1) = false := by
        rw [beq_eq_false_iff_ne]
        intro hh
        exact hn.1 (by rw [← hh]; exact List.mem_map.mpr ⟨e, h, rfl⟩)
      rw [this]
      exact ih hn.2 h

theorem source_mem {n : Nat} {p : Str} {y : Var} {e : Expr} : ∀ (xs : List Var) (r : Recorder), (y, some (.source e)) ∈ (getters P seen n p r xs).1 →
    ∃ r', (getter P seen n p r' y).1 = some (.source e) := by
  intro xs
  induction xs with
  | nil => intro r h; cases h
  | cons x xs ih =>
    intro r h
    rw [getters] at h
    rcases List.mem_cons.mp h with h | h
    · injection h with h1 h2
      exact ⟨r, by rw [h1, h2]⟩
    · exact ih _ h

/-- The type xgo copies from the declaration of a variable, or from the function it is set to, means the type of the variable in
    the file with the imports it has got. -/
theorem C73_declared (hP : ProgOk P) (n : Nat) (p : Str) (xs : List Var) {x : Var} {e : Expr} {k : DeclKind} {im : Imports} {T : GType}
    (hf : FileOk P p im) (hd : P p false x.name = some ⟨k, im⟩) (hT : VarIs P false p false x.name T)
    (h : (x, some (.source e)) ∈ (getters P seen n p {} xs).1) : Denotes P p im (getters P seen n p {} xs).2 (.source e) T := by
  obtain ⟨r', hr'⟩ := source_mem xs {} h
  have := source_ok hP hd hr' hT
  exact weaken (fun e he => ((C73_imports P seen n p xs).2.2.1 e he).2.1) hf e T this

/-- Full statement: in a program that compiles the text xgo writes as the type of a variable means, in the file of the variable with
    the imports it has got, the type of the variable.
    Missing: the untyped constants and the declarations of several variables by one call that `plain` excludes; a declaration met
    first in a function that has a local name, or in a file that has an import, of the same name with another meaning (`SeenOk`);
    variables of external test packages; names of an external test package that the package has too (`ProgOk`). In all these
    cases the claim is false: see the theorems below. Not modelled: fields, methods, indices, generic types, dot imports. -/
theorem C73_type_partial (hP : ProgOk P) (hs : SeenOk P seen) (n : Nat) (p : Str) (xs : List Var) {x : Var} {c : Code} {k : DeclKind}
    {im : Imports} {T : GType} (hf : FileOk P p im) (hd : P p false x.name = some ⟨k, im⟩) (hT : VarIs P true p false x.name T)
    (h : (x, some c) ∈ (getters P seen n p {} xs).1) : Denotes P p im (getters P seen n p {} xs).2 c T := by
  cases c with
  | source e =>
    refine C73_declared hP n p xs hf hd ?_ h
    obtain ⟨im', hT⟩ := hT
    exact ⟨im', mono hT⟩
  | text c =>
    obtain ⟨c1, c2, c3, -⟩ := C73_imports P seen n p xs
    obtain ⟨rf, l, h1, h2, h3, h4, h5⟩ := getters_ok (P := P) (seen := seen) n p xs {} ⟨by simp, by simp, by simp⟩ rfl
    obtain ⟨f, f1, -, f3⟩ := h5 x c h
    refine ⟨f, f1, f3 T _ hP hs ⟨_, hd⟩ hT ⟨rfl, rfl, ?_, ?_⟩⟩
    · intro e he
      have hm : swap e ∈ (getters P seen n p {} xs).2 := by
        rw [h3] at he
        rw [h2]
        exact List.mem_map.mpr ⟨e, by simpa using he, rfl⟩
      have hp := (c3 _ hm).2.1
      refine ⟨(hf.fresh e.2 hp).1, ?_⟩
      simp only
      rw [List.lookup_append, show (getters P seen n p {} xs).2.lookup e.2 = some e.1 from lookup_nodup c1 hm]
      rfl
    · intro y hy
      refine ⟨hf.types y hy, ?_⟩
      simp only
      rw [List.lookup_append, lookup_added (fun e he => (c3 e he).2.1) (predeclared_pre hy)]
      cases hl : im.lookup y with
      | none => rfl
      | some q => exact absurd hy (hP.imports p false x.name _ hd y q hl).1

end Verif.Instrument.VarType
