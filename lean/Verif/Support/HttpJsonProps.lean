/-
C101: proofs about the answers of xgo's HTTP servers.
-/
import Verif.Support.HttpJson

namespace Verif.Support.HttpJson

/-! ### Specification -/

/-- The answer has this status, this body, and lets the page read it wherever it comes from. -/
def Answers (r : Resp) (status : Nat) (body : Str) : Prop :=
  r.status = status ∧ r.body = body ∧ ("Access-Control-Allow-Origin", "*") ∈ r.headers ∧ ("Access-Control-Allow-Headers", "*") ∈ r.headers

/-- The content type the browser is told. -/
def Typed (r : Resp) (t : String) : Prop := r.headers.filter (fun p => p.1 = "Content-Type") = [("Content-Type", t)]

/-- The handler did what it was asked for. -/
def Succeeds {V : Type} (m : Marshal V) (h : Outcome V) : Prop := ∃ v j, h = .ret v none ∧ marshalNil m v = .ok j

/-- A request to destroy session `id` under prefix `p`. -/
def Destroys (decode : Str → Except Str (Option Str)) (r : Req) (p : Prefix) (id : Str) : Prop :=
  ∃ method body, r = .destroy p method (some body) ∧ method ≠ "OPTIONS" ∧ body ≠ [] ∧ decode body = .ok (some id)

/-- How many sessions were started under `p`. -/
def starts (h : List Req) (p : Prefix) : Nat := h.countP fun r => match r with | .start q _ => q = p | _ => false

/-- Session `id` was started under `p` and not destroyed since. -/
def Open (decode : Str → Except Str (Option Str)) (h : List Req) (p : Prefix) (id : Str) : Prop :=
  ∃ a stamp b, h = a ++ .start p stamp :: b ∧
    id = "session_".toList ++ stamp ++ "_".toList ++ Nat.toDigits 10 (starts a p + 1) ∧ ∀ r ∈ b, ¬ Destroys decode r p id

/-! ### Answers -/

theorem cors_header : (setCORS {}).header = [("Access-Control-Allow-Origin", "*"), ("Access-Control-Allow-Headers", "*")] := by
  decide

theorem reply_err {V : Type} (guess : Str → String) (m : Marshal V) (r : Option V × Option Err) (e : Err)
    (h : r.2 = some e ∨ (r.2 = none ∧ ∃ t, marshalNil m r.1 = .error t ∧ e = ⟨t, none⟩)) :
    (reply m (setCORS {}) r).finish guess =
      { status := e.code.getD 500,
        headers := [("Access-Control-Allow-Origin", "*"), ("Access-Control-Allow-Headers", "*")] ++
          (if e.text = [] then [] else [("Content-Type", guess e.text)]),
        body := e.text } := by
  have hr : reply m (setCORS {}) r =
      (((setCORS {}).writeHeader (e.code.getD 500)).setHeader "Content-Type" "text/plain").write e.text := by
    unfold reply
    rcases h with h | ⟨h, t, ht, rfl⟩
    · rw [h]
    · rw [h, ht]
  rw [hr]
  simp only [Writer.finish, Writer.write, Writer.writeHeader, Writer.setHeader, setCORS, List.nil_append, Option.getD_some]
  by_cases hb : e.text = [] <;> simp [hb]

theorem reply_ok {V : Type} (guess : Str → String) (m : Marshal V) (r : Option V × Option Err) (j : Str)
    (h : r.2 = none) (hj : marshalNil m r.1 = .ok j) :
    (reply m (setCORS {}) r).finish guess =
      { status := 200,
        headers := [("Access-Control-Allow-Origin", "*"), ("Access-Control-Allow-Headers", "*"), ("Content-Type", "application/json")],
        body := j } := by
  have hr : reply m (setCORS {}) r = ((setCORS {}).setHeader "Content-Type" "application/json").write j := by
    unfold reply
    rw [h, hj]
  rw [hr]
  simp only [Writer.finish, Writer.write, Writer.writeHeader, Writer.setHeader, setCORS, List.nil_append, Option.getD_some]
  simp

/-- **C101** (partial: panics with an error are missing, see `C101_panic`) Every endpoint tells what happened: the value as JSON, or the
    error with its status, or 500 for a value without JSON and for a panic; and every answer may be read by the page. -/
theorem C101_answer_partial {V : Type} (guess : Str → String) (m : Marshal V) (method : String) (hm : method ≠ "OPTIONS") :
    (∀ v j, marshalNil m v = .ok j → Answers (serve guess m method (.ret v none)) 200 j ∧
      Typed (serve guess m method (.ret v none)) "application/json") ∧
    (∀ v t, marshalNil m v = .error t → Answers (serve guess m method (.ret v none)) 500 t) ∧
    (∀ v (e : Err), Answers (serve guess m method (.ret v (some e))) (e.code.getD 500) e.text) ∧
    (∀ t, Answers (serve guess m method (.panicVal t)) 500 ("panic: ".toList ++ t)) := by
  have cors : ∀ (s : Nat) (l : List (String × String)) (b : Str),
      Answers ⟨s, [("Access-Control-Allow-Origin", "*"), ("Access-Control-Allow-Headers", "*")] ++ l, b⟩ s b :=
    fun s l b => ⟨rfl, rfl, by simp, by simp⟩
  simp only [serve, handleJSON, if_neg hm]
  refine ⟨fun v j hj => ?_, fun v t ht => ?_, fun v e => ?_, fun t => ?_⟩
  · rw [reply_ok guess m (recovered (.ret v none)) j rfl hj]
    exact ⟨cors 200 [("Content-Type", "application/json")] j, by unfold Typed; simp⟩
  · rw [reply_err guess m (recovered (.ret v none)) ⟨t, none⟩ (.inr ⟨rfl, t, ht, rfl⟩)]
    exact cors _ _ _
  · rw [reply_err guess m (recovered (.ret v (some e))) e (.inl rfl)]
    exact cors _ _ _
  · rw [reply_err guess m (recovered (.panicVal t)) ⟨"panic: ".toList ++ t, none⟩ (.inl rfl)]
    exact cors _ _ _

example : Answers (serve (V := Nat) (fun _ => "text/plain") (fun n => .ok (Nat.toDigits 10 n)) "POST" (.ret (some 42) none)) 200 "42".toList :=
  ((C101_answer_partial _ (fun n => .ok (Nat.toDigits 10 n)) "POST" (by decide)).1 (some 42) "42".toList (by rw [marshalNil]; exact congrArg Except.ok (by decide))).1

/-- **C101** (preflight) `OPTIONS` is answered with the headers the browser asks for, and nothing is done. -/
theorem C101_options {V : Type} (guess : Str → String) (m : Marshal V) (h : Outcome V) : Answers (serve guess m "OPTIONS" h) 200 [] := by
  refine ⟨rfl, rfl, ?_, ?_⟩ <;> simp [serve, handleJSON, Writer.finish, Writer.writeHeader, setCORS, Writer.setHeader]

/-- **C101** (partial) Where the handler does not panic with an error and errors have the codes of errors, the status is 200 exactly if the
    handler succeeded. -/
theorem C101_success_partial {V : Type} (guess : Str → String) (m : Marshal V) (method : String) (hm : method ≠ "OPTIONS") (h : Outcome V)
    (hp : ∀ e, h ≠ .panicErr e) (hc : ∀ v e c, h = .ret v (some e) → e.code = some c → 400 ≤ c) :
    (serve guess m method h).status = 200 ↔ Succeeds m h := by
  obtain ⟨h1, h2, h3, h4⟩ := C101_answer_partial guess m method hm
  cases h with
  | panicErr e => exact absurd rfl (hp e)
  | panicVal t =>
    rw [(h4 t).1]
    exact ⟨fun h => absurd h (by decide), fun ⟨v, j, h, _⟩ => by cases h⟩
  | ret v err =>
    cases err with
    | some e =>
      rw [(h3 v e).1]
      constructor
      · intro h
        cases hcode : e.code with
        | none => rw [hcode] at h; exact absurd h (by decide)
        | some c => rw [hcode] at h; have := hc v e c rfl hcode; simp at h; omega
      · rintro ⟨w, j, h, _⟩; cases h
    | none =>
      cases hj : marshalNil m v with
      | ok j => rw [(h1 v j hj).1.1]; exact ⟨fun _ => ⟨v, j, rfl, hj⟩, fun _ => rfl⟩
      | error t =>
        rw [(h2 v t hj).1]
        refine ⟨fun h => absurd h (by decide), ?_⟩
        rintro ⟨w, j, h, hw⟩
        injection h with h
        rw [h, hw] at hj
        cases hj

/-- **C101 is false of the code**: a panic with an error (all of the Go runtime's: nil pointers, indices, nil maps, failed assertions) is
    answered as a success, with the JSON `null`. -/
theorem C101_panic {V : Type} (guess : Str → String) (m : Marshal V) (method : String) (hm : method ≠ "OPTIONS") (e : Err) :
    Answers (serve guess m method (.panicErr e)) 200 "null".toList ∧ Typed (serve guess m method (.panicErr e)) "application/json" ∧
    ¬ Succeeds m (.panicErr e) := by
  simp only [serve, handleJSON, if_neg hm]
  rw [reply_ok guess m (recovered (.panicErr e)) "null".toList rfl rfl]
  exact ⟨⟨rfl, rfl, by simp, by simp⟩, by unfold Typed; simp, fun ⟨_, _, h, _⟩ => by cases h⟩

/-- **C101 is false of the code**: the type `text/plain` of an error is set when the header is gone; the browser is told what the first
    bytes of the text look like. -/
theorem C101_error_type {V : Type} (guess : Str → String) (m : Marshal V) (method : String) (hm : method ≠ "OPTIONS") (v : Option V) (e : Err)
    (he : e.text ≠ []) : Typed (serve guess m method (.ret v (some e))) (guess e.text) := by
  simp only [serve, handleJSON, if_neg hm]
  rw [reply_err guess m (recovered (.ret v (some e))) e (.inl rfl), if_neg he]
  unfold Typed
  simp

/-! ### Sessions -/

section
variable (decode : Str → Except Str (Option Str)) (readErr : Str)

theorem run_snoc (h : List Req) (r : Req) : run decode readErr (h ++ [r]) = step decode readErr (run decode readErr h) r := by
  rw [run, List.foldl_append]; rfl

theorem snoc_induction {α : Type} {P : List α → Prop} (h0 : P []) (h1 : ∀ l a, P l → P (l ++ [a])) (l : List α) : P l := by
  have : ∀ n (l : List α), l.length = n → P l := by
    intro n
    induction n with
    | zero => intro l hl; rw [List.length_eq_zero_iff.1 hl]; exact h0
    | succ n ih =>
      intro l hl
      rcases List.eq_nil_or_concat l with rfl | ⟨b, y, rfl⟩
      · exact h0
      · rw [List.concat_eq_append] at hl ⊢
        exact h1 b y (ih b (by simpa using hl))
  exact this _ l rfl

theorem next_starts (h : List Req) (p : Prefix) : (run decode readErr h).next p = starts h p := by
  induction h using snoc_induction with
  | h0 => rfl
  | h1 h r ih =>
    rw [run_snoc, starts, List.countP_append, ← starts]
    cases r with
    | start q stamp =>
      simp only [step]
      by_cases hq : p = q
      · subst hq; rw [if_pos rfl, ih]; simp
      · rw [if_neg hq, ih]
        have : ¬ q = p := fun h => hq h.symm
        simp [this]
    | poll q m b => simp only [step]; rw [ih]; simp
    | destroy q m b =>
      simp only [step]
      by_cases hm : m = "OPTIONS"
      · rw [if_pos hm, ih]; simp
      · rw [if_neg hm]; simp only; rw [ih]; simp

theorem open_snoc (h : List Req) (r : Req) (p : Prefix) (id : Str) :
    Open decode (h ++ [r]) p id ↔ (∃ stamp, r = .start p stamp ∧ id = sessionId stamp (starts h p + 1)) ∨
      (Open decode h p id ∧ ¬ Destroys decode r p id) := by
  constructor
  · rintro ⟨a, stamp, b, e, hid, hb⟩
    rcases List.eq_nil_or_concat b with rfl | ⟨b', y, hy⟩
    · obtain ⟨e1, e2⟩ := List.append_inj' e rfl
      injection e2 with e2
      exact .inl ⟨stamp, e2, by rw [e1]; exact hid⟩
    · subst hy
      rw [List.concat_eq_append] at e hb
      rw [← List.cons_append, ← List.append_assoc] at e
      obtain ⟨e1, e2⟩ := List.append_inj' e rfl
      injection e2 with e2
      exact .inr ⟨⟨a, stamp, b', e1, hid, fun r hr => hb r (List.mem_append_left _ hr)⟩, e2 ▸ hb y (by simp)⟩
  · rintro (⟨stamp, rfl, hid⟩ | ⟨⟨a, stamp, b, rfl, hid, hb⟩, hr⟩)
    · exact ⟨h, stamp, [], rfl, hid, by simp⟩
    · refine ⟨a, stamp, b ++ [r], by simp, hid, ?_⟩
      intro x hx
      rcases List.mem_append.1 hx with hx | hx
      · exact hb x hx
      · rw [List.mem_singleton.1 hx]; exact hr

theorem sessionId_ne (stamp : Str) (n : Nat) : sessionId stamp n ≠ [] := by
  have hs : "session_".toList = ['s', 'e', 's', 's', 'i', 'o', 'n', '_'] := by decide
  unfold sessionId
  rewrite [hs]
  exact fun h => List.cons_ne_nil _ _ h

theorem destroys_iff (p q : Prefix) (m : String) (b : Option Str) (id : Str) :
    Destroys decode (.destroy q m b) p id ↔ q = p ∧ m ≠ "OPTIONS" ∧ parseBody decode readErr b = .ok (some id) := by
  constructor
  · rintro ⟨method, body, e, hm, hb, hd⟩
    injection e with e1 e2 e3
    subst e1 e2 e3
    refine ⟨rfl, hm, ?_⟩
    cases body with
    | nil => exact absurd rfl hb
    | cons c cs => simp only [parseBody, hd]
  · rintro ⟨rfl, hm, hp⟩
    cases b with
    | none => cases hp
    | some body =>
      cases body with
      | nil => cases hp
      | cons c cs =>
        refine ⟨m, c :: cs, rfl, hm, by simp, ?_⟩
        simp only [parseBody] at hp
        cases hd : decode (c :: cs) with
        | error t => rw [hd] at hp; cases hp
        | ok r => rw [hd] at hp; simpa using hp

theorem open_iff (h : List Req) (p : Prefix) (id : Str) : id ∈ (run decode readErr h).ids p ↔ Open decode h p id := by
  induction h using snoc_induction generalizing id with
  | h0 =>
    refine ⟨fun h => (by cases h), ?_⟩
    rintro ⟨a, stamp, b, e, -⟩
    cases a <;> cases e
  | h1 h r ih =>
    rw [run_snoc, open_snoc, ← ih]
    cases r with
    | start q stamp =>
      have hnd : ¬ Destroys decode (.start q stamp) p id := fun ⟨_, _, e, _⟩ => by cases e
      simp only [step]
      by_cases hq : p = q
      · subst hq
        rw [if_pos rfl, List.mem_append, List.mem_singleton, next_starts]
        constructor
        · rintro (h | h)
          · exact .inr ⟨h, hnd⟩
          · exact .inl ⟨stamp, rfl, h⟩
        · rintro (⟨s, e, h⟩ | h)
          · injection e with _ e; subst e; exact .inr h
          · exact .inl h.1
      · rw [if_neg hq]
        constructor
        · exact fun h => .inr ⟨h, hnd⟩
        · rintro (⟨s, e, h⟩ | h)
          · injection e with e; exact absurd e.symm hq
          · exact h.1
    | poll q m b =>
      simp only [step]
      constructor
      · exact fun h => .inr ⟨h, fun ⟨_, _, e, _⟩ => by cases e⟩
      · rintro (⟨s, e, h⟩ | h)
        · cases e
        · exact h.1
    | destroy q m b =>
      simp only [step]
      have hno : ¬ ∃ stamp, Req.destroy q m b = .start p stamp ∧ id = sessionId stamp (starts h p + 1) := fun ⟨_, e, _⟩ => by cases e
      rw [or_iff_right hno]
      by_cases hm : m = "OPTIONS"
      · rw [if_pos hm]
        refine ⟨fun h => ⟨h, ?_⟩, fun h => h.1⟩
        rintro ⟨_, _, e, h', _⟩
        injection e with e1 e2 e3
        exact h' (e2 ▸ hm)
      · rw [if_neg hm]
        simp only
        by_cases hmem : id ∈ (run decode readErr h).ids p
        · have hid : id ≠ [] := by
            obtain ⟨a, stamp, b, -, e, -⟩ := (ih id).1 hmem
            rw [e]; exact sessionId_ne stamp _
          rw [destroys_iff decode readErr p q m b id]
          by_cases hq : p = q
          · subst hq
            rw [if_pos rfl]
            cases hp : parseBody decode readErr b with
            | error e => simp [destroyed, hmem]
            | ok r =>
              cases r with
              | none => simp [destroyed, hmem]
              | some x =>
                simp only [destroyed]
                by_cases hx : x = []
                · rw [if_pos hx, hx]
                  simp [hmem, Ne.symm hid]
                · rw [if_neg hx, List.mem_filter]
                  simp only [hmem, hm, ne_eq, not_false_eq_true, true_and, decide_not, Bool.not_eq_true', decide_eq_false_iff_not,
                    Except.ok.injEq, Option.some.injEq]
                  exact not_congr ⟨fun h => h.symm, fun h => h.symm⟩
          · rw [if_neg hq]
            simp [hmem, Ne.symm hq]
        · refine ⟨fun hc => absurd ?_ hmem, fun hc => absurd hc.1 hmem⟩
          by_cases hq : p = q
          · subst hq
            rw [if_pos rfl] at hc
            cases hp : parseBody decode readErr b with
            | error e => rw [hp] at hc; exact hc
            | ok r =>
              rw [hp] at hc
              cases r with
              | none => exact hc
              | some x =>
                simp only [destroyed] at hc
                by_cases hx : x = []
                · rw [if_pos hx] at hc; exact hc
                · rw [if_neg hx] at hc; exact (List.mem_filter.1 hc).1
          · rw [if_neg hq] at hc; exact hc

/-- **C101** (sessions) Whatever requests came before: asking for the events of a session is answered with them if the session was started
    under the same prefix and not destroyed since, and with 400 and a text that names it otherwise. -/
theorem C101_poll {V : Type} (guess : Str → String) (m : Marshal V) (events : Str → V) (h : List Req) (p : Prefix) (method : String)
    (hm : method ≠ "OPTIONS") (body id : Str) (hb : body ≠ []) (hd : decode body = .ok (some id)) (hid : id ≠ []) :
    (Open decode h p id → ∀ j, m (events id) = .ok j →
      Answers (serve guess m method (poll events ((run decode readErr h).ids p) (parseBody decode readErr (some body)))) 200 j) ∧
    (¬ Open decode h p id →
      Answers (serve guess m method (poll events ((run decode readErr h).ids p) (parseBody decode readErr (some body)))) 400
        ("session ".toList ++ id ++ " does not exist or has been removed".toList)) := by
  have hp : parseBody decode readErr (some body) = .ok (some id) := by
    cases body with
    | nil => exact absurd rfl hb
    | cons c cs => simp only [parseBody, hd]
  obtain ⟨h1, -, h3, -⟩ := C101_answer_partial guess m method hm
  rw [hp, poll, if_neg hid]
  constructor
  · intro ho j hj
    rw [if_pos ((open_iff decode readErr h p id).2 ho)]
    exact (h1 (some (events id)) j hj).1
  · intro ho
    rw [if_neg fun hmem => ho ((open_iff decode readErr h p id).1 hmem)]
    exact h3 none (paramErr _)

/-- **C101** (destroying) A request that names a session is answered with success, and afterwards the session is gone; other sessions, and those
    of the other prefixes, stay. -/
theorem C101_destroy {V : Type} (guess : Str → String) (m : Marshal V) (h : List Req) (p : Prefix) (method : String)
    (hm : method ≠ "OPTIONS") (body id : Str) (hb : body ≠ []) (hd : decode body = .ok (some id)) (hid : id ≠ []) :
    Answers (serve guess m method (destroy (parseBody decode readErr (some body)))) 200 "null".toList ∧
    ∀ q x, Open decode (h ++ [.destroy p method (some body)]) q x ↔ Open decode h q x ∧ ¬ (q = p ∧ x = id) := by
  have hp : parseBody decode readErr (some body) = .ok (some id) := by
    cases body with
    | nil => exact absurd rfl hb
    | cons c cs => simp only [parseBody, hd]
  refine ⟨?_, ?_⟩
  · rw [hp, destroy, if_neg hid]
    exact ((C101_answer_partial guess m method hm).1 none "null".toList rfl).1
  · intro q x
    rw [open_snoc, or_iff_right (fun ⟨_, e, _⟩ => (by cases e))]
    constructor
    · rintro ⟨ho, hn⟩
      refine ⟨ho, ?_⟩
      rintro ⟨rfl, rfl⟩
      exact hn ⟨method, body, rfl, hm, hb, hd⟩
    · rintro ⟨ho, hn⟩
      refine ⟨ho, ?_⟩
      rintro ⟨m', b', e, _, _, hd'⟩
      injection e with e1 e2 e3
      injection e3 with e3
      subst e1 e3
      rw [hd] at hd'
      injection hd' with hd'
      injection hd' with hd'
      exact hn ⟨rfl, hd'.symm⟩

/-- **C101 is false of the code**: a request without a body, or with the JSON `null`, to destroy a session or for its events, is not
    understood, does nothing, and is answered as a success. -/
theorem C101_no_body {V : Type} (guess : Str → String) (m : Marshal V) (events : Str → V) (h : List Req) (p : Prefix) (method : String)
    (hm : method ≠ "OPTIONS") (body : Str) (hb : body = [] ∨ decode body = .ok none) :
    Answers (serve guess m method (poll events ((run decode readErr h).ids p) (parseBody decode readErr (some body)))) 200 "null".toList ∧
    Answers (serve guess m method (destroy (parseBody decode readErr (some body)))) 200 "null".toList ∧
    ∀ q x, Open decode (h ++ [.destroy p method (some body)]) q x ↔ Open decode h q x := by
  have hp : parseBody decode readErr (some body) = .ok none := by
    cases body with
    | nil => rfl
    | cons c cs =>
      rcases hb with hb | hb
      · cases hb
      · simp only [parseBody, hb]
  refine ⟨?_, ?_, ?_⟩
  · rw [hp]; exact (C101_panic guess m method hm nilPointer).1
  · rw [hp]; exact (C101_panic guess m method hm nilPointer).1
  · intro q x
    rw [open_snoc, or_iff_right (fun ⟨_, e, _⟩ => (by cases e))]
    refine ⟨fun h => h.1, fun h => ⟨h, ?_⟩⟩
    rintro ⟨m', b', e, _, hb', hd'⟩
    injection e with e1 e2 e3
    injection e3 with e3
    subst e3
    rcases hb with hb | hb
    · exact hb' hb
    · rw [hd'] at hb; injection hb with hb; cases hb

/-- **C101** (sessions, bad questions) A request that names no session is answered with 400, one whose body cannot be read or is not JSON with
    500, and nothing is destroyed. -/
theorem C101_bad_body {V : Type} (guess : Str → String) (m : Marshal V) (events : Str → V) (h : List Req) (p : Prefix) (method : String)
    (hm : method ≠ "OPTIONS") (body : Option Str) (status : Nat) (text : Str)
    (hb : (∃ b, body = some b ∧ b ≠ [] ∧ decode b = .ok (some []) ∧ status = 400 ∧ text = "requires id".toList) ∨
      (∃ b, body = some b ∧ b ≠ [] ∧ decode b = .error text ∧ status = 500) ∨ (body = none ∧ status = 500 ∧ text = readErr)) :
    Answers (serve guess m method (poll events ((run decode readErr h).ids p) (parseBody decode readErr body))) status text ∧
    Answers (serve guess m method (destroy (parseBody decode readErr body))) status text ∧
    ∀ q, (run decode readErr (h ++ [.destroy p method body])).ids q = (run decode readErr h).ids q := by
  obtain ⟨-, -, h3, -⟩ := C101_answer_partial guess m method hm
  have hp : (parseBody decode readErr body = .ok (some []) ∧ status = 400 ∧ text = "requires id".toList) ∨
      (parseBody decode readErr body = .error ⟨text, none⟩ ∧ status = 500) := by
    rcases hb with ⟨b, rfl, hb, hd, hs, ht⟩ | ⟨b, rfl, hb, hd, hs⟩ | ⟨rfl, hs, ht⟩
    · cases b with
      | nil => exact absurd rfl hb
      | cons c cs => exact .inl ⟨by simp only [parseBody, hd], hs, ht⟩
    · cases b with
      | nil => exact absurd rfl hb
      | cons c cs => exact .inr ⟨by simp only [parseBody, hd], hs⟩
    · exact .inr ⟨by rw [ht]; rfl, hs⟩
  rcases hp with ⟨hp, rfl, rfl⟩ | ⟨hp, rfl⟩
  · refine ⟨?_, ?_, fun q => ?_⟩
    · rw [hp, poll, if_pos rfl]; exact h3 none (paramErr _)
    · rw [hp, destroy, if_pos rfl]; exact h3 none (paramErr _)
    · rw [run_snoc]; simp only [step, if_neg hm, hp, destroyed, if_pos]
      by_cases hq : q = p
      · rw [if_pos hq, hq]
      · rw [if_neg hq]
  · refine ⟨?_, ?_, fun q => ?_⟩
    · rw [hp, poll]; exact h3 none ⟨text, none⟩
    · rw [hp, destroy]; exact h3 none ⟨text, none⟩
    · rw [run_snoc]; simp only [step, if_neg hm, hp, destroyed]
      by_cases hq : q = p
      · rw [if_pos hq, hq]
      · rw [if_neg hq]

end

/-- A reader of bodies for the examples: the text is the id; `null` is nil. -/
def exDecode (b : Str) : Except Str (Option Str) := if b = "null".toList then .ok none else .ok (some b)

def exHistory : List Req :=
  [.start .session "t".toList, .start .session "t".toList, .start .run "t".toList, .destroy .session "POST" (some "session_t_1".toList),
   .destroy .run "POST" (some []), .destroy .session "OPTIONS" (some "session_t_2".toList)]

example : (run exDecode [] exHistory).ids .session = ["session_t_2".toList] ∧ (run exDecode [] exHistory).ids .run = ["session_t_1".toList] ∧
    (run exDecode [] exHistory).ids .debug = [] := by decide
example : Open exDecode exHistory .session "session_t_2".toList ∧ ¬ Open exDecode exHistory .session "session_t_1".toList := by
  rw [← open_iff exDecode [], ← open_iff exDecode []]; decide
example : exDecode "null".toList = .ok none ∧ exDecode "session_t_2".toList = .ok (some "session_t_2".toList) :=
  ⟨if_pos (by decide), if_neg (by decide)⟩

/-! ### The text of a test -/

/-- The file and the name a request is about: the query counts before the body. -/
def Wanted (q : Query) (r : Option Detail) (name file : Str) : Prop :=
  (name = q.name ∨ (q.name = [] ∧ ∃ d f, r = some d ∧ d.base = some (name, f))) ∧
  (file = q.file ∨ (q.file = [] ∧ ∃ d n, r = some d ∧ d.base = some (n, file)))

theorem detail_wanted (parse : Parser) (atoi : Str → Except Str Int) (disk1 disk2 : Str → Except Str Str) (q : Query) (r : Option Detail)
    (name file : Str) (hw : Wanted q r name file) (hn : name ≠ []) (hf : file ≠ []) (hl : q.line = [] ∨ ∃ n, atoi q.line = .ok n) :
    detail parse atoi disk1 disk2 q (.ok r) = getDetail parse disk1 disk2 name file := by
  have e1 : (if q.name ≠ [] then q.name else ((r.bind Detail.base).getD ([], [])).1) = name := by
    rcases hw.1 with h | ⟨h, d, f, hr, hd⟩
    · rw [if_pos (h ▸ hn)]; exact h.symm
    · rw [if_neg (by simp [h]), hr, Option.bind_some, hd]; rfl
  have e2 : (if q.file ≠ [] then q.file else ((r.bind Detail.base).getD ([], [])).2) = file := by
    rcases hw.2 with h | ⟨h, d, f, hr, hd⟩
    · rw [if_pos (h ▸ hf)]; exact h.symm
    · rw [if_neg (by simp [h]), hr, Option.bind_some, hd]; rfl
  have e3 : (if q.line ≠ [] then
        match atoi q.line with
        | .error t => some (paramErr ("line: ".toList ++ t))
        | .ok _ => none
      else none) = none := by
    rcases hl with h | ⟨n, h⟩
    · rw [if_neg (by simp [h])]
    · rw [h]; simp
  unfold detail
  dsimp only
  rw [e1, e2]
  rcases hl with h | ⟨n, h⟩
  · simp [h]
  · simp [h]

/-- **C101** (`/detail`) The answer to the question for a test is its text in the file: of the first test function of that name; 400 if there
    is none. -/
theorem C101_detail (guess : Str → String) (m : Marshal Str) (method : String) (hm : method ≠ "OPTIONS") (parse : Parser)
    (atoi : Str → Except Str Int) (disk : Str → Except Str Str) (q : Query) (r : Option Detail) (name file c : Str)
    (fs : List (Str × Nat × Nat)) (hw : Wanted q r name file) (hn : name ≠ []) (hf : file ≠ [])
    (hl : q.line = [] ∨ ∃ n, atoi q.line = .ok n) (hdisk : disk file = .ok c) (hparse : parse c = .ok fs)
    (hrange : ∀ f ∈ fs, f.2.1 ≤ f.2.2 ∧ f.2.2 ≤ c.length) :
    (∀ a i j b, fs = a ++ (name, i, j) :: b → (∀ f ∈ a, f.1 ≠ name) → ∃ text before after, c = before ++ text ++ after ∧
      before.length = i ∧ text.length = j - i ∧ detail parse atoi disk disk q (.ok r) = .ret (some text) none ∧
      ∀ x, m text = .ok x → Answers (serve guess m method (detail parse atoi disk disk q (.ok r))) 200 x) ∧
    ((∀ f ∈ fs, f.1 ≠ name) →
      Answers (serve guess m method (detail parse atoi disk disk q (.ok r))) 400 ("not found: ".toList ++ name)) := by
  obtain ⟨h1, -, h3, -⟩ := C101_answer_partial guess m method hm
  rw [detail_wanted parse atoi disk disk q r name file hw hn hf hl]
  rw [getDetail, if_neg hf, if_neg hn, hdisk]
  dsimp only
  rw [hparse]
  dsimp only
  constructor
  · intro a i j b e ha
    have hfind : fs.find? (fun f => decide (f.1 = name)) = some (name, i, j) := by
      rw [e, List.find?_append, List.find?_eq_none.2 (fun f hf => by simpa using ha f hf)]
      simp
    have hr := hrange (name, i, j) (by rw [e]; simp)
    rw [hfind]
    dsimp only
    rw [if_pos hr]
    refine ⟨(c.take j).drop i, c.take i, c.drop j, ?_, ?_, ?_, rfl, fun x hx => (h1 (some _) x hx).1⟩
    · have e1 : c.take i = (c.take j).take i := by rw [List.take_take, Nat.min_eq_left hr.1]
      rw [e1, List.take_append_drop, List.take_append_drop]
    · rw [List.length_take]; exact Nat.min_eq_left (Nat.le_trans hr.1 hr.2)
    · rw [List.length_drop, List.length_take, Nat.min_eq_left hr.2]
  · intro hno
    rw [List.find?_eq_none.2 (fun f hf => by simpa using hno f hf)]
    exact h3 none (paramErr _)

/-- `/detail` for `TestB`, given in the body, of a file with three tests. -/
example : detail (fun _ => .ok [("TestA".toList, 0, 2), ("TestB".toList, 2, 5), ("TestB".toList, 5, 6)]) (fun _ => .ok 0)
    (fun _ => .ok "aabbbcd".toList) (fun _ => .ok "aabbbcd".toList) { file := "f".toList } (.ok (some { base := some ("TestB".toList, "g".toList) })) =
      .ret (some "bbb".toList) none := by rfl
example : Wanted { file := "f".toList } (some { base := some ("TestB".toList, "g".toList) }) "TestB".toList "f".toList :=
  ⟨.inr ⟨rfl, _, _, rfl, rfl⟩, .inl rfl⟩

/-- **C101** (`/detail`, bad questions) 400 for a line that is no number, for a missing file and for a missing name; 500 for a body that is
    not JSON. -/
theorem C101_detail_bad (guess : Str → String) (m : Marshal Str) (method : String) (hm : method ≠ "OPTIONS") (parse : Parser)
    (atoi : Str → Except Str Int) (disk1 disk2 : Str → Except Str Str) (q : Query) (r : Option Detail) :
    (∀ t, q.line ≠ [] → atoi q.line = .error t →
      Answers (serve guess m method (detail parse atoi disk1 disk2 q (.ok r))) 400 ("line: ".toList ++ t)) ∧
    (q.line = [] → q.file = [] → (∀ d n f, r = some d → d.base = some (n, f) → f = []) →
      Answers (serve guess m method (detail parse atoi disk1 disk2 q (.ok r))) 400 "requires file".toList) ∧
    (q.line = [] → q.file ≠ [] → q.name = [] → (∀ d n f, r = some d → d.base = some (n, f) → n = []) →
      Answers (serve guess m method (detail parse atoi disk1 disk2 q (.ok r))) 400 "requires name".toList) ∧
    (∀ t, Answers (serve guess m method (detail parse atoi disk1 disk2 q (.error ⟨t, none⟩))) 500 t) := by
  obtain ⟨-, -, h3, -⟩ := C101_answer_partial guess m method hm
  refine ⟨fun t hl ht => ?_, fun hl hf hr => ?_, fun hl hf hn hr => ?_, fun t => h3 none ⟨t, none⟩⟩
  · have : detail parse atoi disk1 disk2 q (.ok r) = .ret none (some (paramErr ("line: ".toList ++ t))) := by
      unfold detail; dsimp only; rw [if_pos hl, ht]
    rw [this]
    exact h3 none (paramErr _)
  · have hb : ((r.bind Detail.base).getD ([], [])).2 = [] := by
      cases r with
      | none => rfl
      | some d =>
        cases hd : d.base with
        | none => simp [hd]
        | some b => simp [hd, hr d b.1 b.2 rfl hd]
    have : detail parse atoi disk1 disk2 q (.ok r) = .ret none (some (paramErr "requires file".toList)) := by
      unfold detail; dsimp only
      rw [if_neg (by simp [hl] : ¬ q.line ≠ []), if_neg (by simp [hf] : ¬ q.file ≠ []), hb]
      dsimp only
      rw [getDetail, if_pos rfl]
    rw [this]
    exact h3 none (paramErr _)
  · have hb : ((r.bind Detail.base).getD ([], [])).1 = [] := by
      cases r with
      | none => rfl
      | some d =>
        cases hd : d.base with
        | none => simp [hd]
        | some b => simp [hd, hr d b.1 b.2 rfl hd]
    have : detail parse atoi disk1 disk2 q (.ok r) = .ret none (some (paramErr "requires name".toList)) := by
      unfold detail; dsimp only
      rw [if_neg (by simp [hl] : ¬ q.line ≠ []), if_pos hf, if_neg (by simp [hn] : ¬ q.name ≠ []), hb]
      dsimp only
      rw [getDetail, if_neg hf, if_pos rfl]
    rw [this]
    exact h3 none (paramErr _)

example : serve (fun _ => "t") (fun s => .ok s) "GET" (detail (fun _ => .ok []) (fun _ => .ok 0) (fun _ => .ok []) (fun _ => .ok []) {} (.ok none)) =
    ⟨400, [("Access-Control-Allow-Origin", "*"), ("Access-Control-Allow-Headers", "*"), ("Content-Type", "t")], "requires file".toList⟩ := by
  rfl

/-- **C101 is false of the code**: the file is read twice; if it is cut in between, the answer is success and `null`. -/
theorem C101_detail_race (guess : Str → String) (m : Marshal Str) (atoi : Str → Except Str Int) :
    ∃ (parse : Parser) (disk1 disk2 : Str → Except Str Str),
      (∀ c fs, parse c = .ok fs → ∀ f ∈ fs, f.2.1 ≤ f.2.2 ∧ f.2.2 ≤ c.length) ∧
      Answers (serve guess m "POST" (detail parse atoi disk1 disk2 { file := "f".toList, name := "TestA".toList } (.ok none))) 200
        "null".toList := by
  refine ⟨fun c => .ok [("TestA".toList, 0, c.length)], fun _ => .ok "ab".toList, fun _ => .ok "a".toList, ?_, ?_⟩
  · intro c fs h f hf
    injection h with h
    subst h
    rw [List.mem_singleton.1 hf]
    exact ⟨Nat.zero_le _, Nat.le_refl _⟩
  · exact (C101_panic guess m "POST" (by decide) ⟨"runtime error: slice bounds out of range".toList, none⟩).1

end Verif.Support.HttpJson
