import Verif.Spec.Pipeline
/-!
# Lemmas: the channels between handlers, queues and cache
-/
set_option linter.unusedSimpArgs false

namespace OM.Pipe

open OM.Spec

/-! ## Views of the outgoing goroutine -/

def Out.asked : Out → List Req
  | .collect p => p
  | .send r _ => r
  | .deliver _ => []

def Out.answ : Out → List (Nat × StateResponse)
  | .collect _ => []
  | .send _ a => a
  | .deliver d => d

def Out.Ok : Out → Prop
  | .collect _ => True
  | .send r _ => r ≠ []
  | .deliver d => d ≠ []

def Inp.items : Inp → List StateUpdate
  | .reading g => g
  | .pushing r => r

def Inp.Ok : Inp → Prop
  | .reading _ => True
  | .pushing r => r ≠ []

theorem items_r (g) : (Inp.reading g).items = g := rfl
theorem items_p (g) : (Inp.pushing g).items = g := rfl
theorem asked_c (p) : (Out.collect p).asked = p := rfl
theorem asked_s (r a) : (Out.send r a).asked = r := rfl
theorem asked_d (d) : (Out.deliver d).asked = [] := rfl
theorem answ_c (p) : (Out.collect p).answ = [] := rfl
theorem answ_s (r a) : (Out.send r a).answ = a := rfl
theorem answ_d (d) : (Out.deliver d).answ = d := rfl

@[simp] theorem asked_flush (p) : (Out.flush p).asked = p := by cases p <;> rfl
@[simp] theorem answ_flush (p) : (Out.flush p).answ = [] := by cases p <;> rfl
@[simp] theorem ok_flush (p) : (Out.flush p).Ok := by cases p <;> simp [Out.flush, Out.Ok]
@[simp] theorem asked_afterDeliver (d) : (Out.afterDeliver d).asked = [] := by cases d <;> rfl
@[simp] theorem answ_afterDeliver (d) : (Out.afterDeliver d).answ = d := by cases d <;> rfl
@[simp] theorem ok_afterDeliver (d) : (Out.afterDeliver d).Ok := by
  cases d <;> simp [Out.afterDeliver, Out.Ok]
@[simp] theorem asked_afterSend (q a) : (Out.afterSend q a).asked = q := by
  cases q
  · exact asked_afterDeliver a
  · rfl
@[simp] theorem answ_afterSend (q a) : (Out.afterSend q a).answ = a := by
  cases q
  · exact answ_afterDeliver a
  · rfl
@[simp] theorem ok_afterSend (q a) : (Out.afterSend q a).Ok := by
  cases q
  · exact ok_afterDeliver a
  · simp [Out.afterSend, Out.Ok]
@[simp] theorem asked_afterReceive (t p) : (Out.afterReceive t p).asked = p := by
  unfold Out.afterReceive; split
  · exact asked_flush p
  · rfl
@[simp] theorem answ_afterReceive (t p) : (Out.afterReceive t p).answ = [] := by
  unfold Out.afterReceive; split
  · exact answ_flush p
  · rfl
@[simp] theorem ok_afterReceive (t p) : (Out.afterReceive t p).Ok := by
  unfold Out.afterReceive; split
  · exact ok_flush p
  · trivial
@[simp] theorem items_afterPush (u) : (Inp.afterPush u).items = u := by cases u <;> rfl
@[simp] theorem ok_afterPush (u) : (Inp.afterPush u).Ok := by
  cases u <;> simp [Inp.afterPush, Inp.Ok]

/-! ## The invariant -/

def updsOf (i : Nat) (log : List (Nat × StateUpdate × StateResponse)) : List StateUpdate :=
  (log.filter fun x => decide (x.1 = i)).map (·.2.1)

def respsOf (i : Nat) (log : List (Nat × StateUpdate × StateResponse)) : List StateResponse :=
  (log.filter fun x => decide (x.1 = i)).map (·.2.2)

def askedOf (i : Nat) (l : List Req) : List StateUpdate :=
  (l.filter fun x => decide (x.caller = i)).map (·.update)

def answOf (i : Nat) (l : List (Nat × StateResponse)) : List StateResponse :=
  (l.filter fun x => decide (x.1 = i)).map (·.2)

structure CInv (log : List (Nat × StateUpdate × StateResponse)) (o : Out) (i : Nat) (c : Call) : Prop where
  upds : updsOf i log ++ askedOf i o.asked ++ c.todo = c.ups
  resps : respsOf i log = c.got ++ c.buf ++ answOf i o.answ
  need : c.need + c.got.length = c.ups.length
  done : c.done = true → c.todo = [] ∧ c.need = 0
  cap : c.ups.length ≤ c.cap ∨ c.ups.length = 1
  buf : c.buf.length ≤ c.cap

structure Inv (s : St) : Prop where
  np : s.panicked = false
  ok : s.out.Ok
  inOk : s.inp.Ok
  asked : ∀ q ∈ s.out.asked, q.caller < s.calls.length
  answ : ∀ q ∈ s.out.answ, q.1 < s.calls.length
  log : ∀ x ∈ s.log, x.1 < s.calls.length
  calls : ∀ i c, s.calls[i]? = some c → CInv s.log s.out i c

theorem length_upds_resps (i log) : (updsOf i log).length = (respsOf i log).length := by
  simp [updsOf, respsOf]

@[simp] theorem updsOf_append (i a b) : updsOf i (a ++ b) = updsOf i a ++ updsOf i b := by
  simp [updsOf]
@[simp] theorem respsOf_append (i a b) : respsOf i (a ++ b) = respsOf i a ++ respsOf i b := by
  simp [respsOf]
@[simp] theorem askedOf_append (i a b) : askedOf i (a ++ b) = askedOf i a ++ askedOf i b := by
  simp [askedOf]
@[simp] theorem answOf_append (i a b) : answOf i (a ++ b) = answOf i a ++ answOf i b := by
  simp [answOf]
@[simp] theorem askedOf_nil (i) : askedOf i [] = [] := rfl
@[simp] theorem answOf_nil (i) : answOf i [] = [] := rfl
theorem askedOf_cons (i q l) :
    askedOf i (q :: l) = (if q.caller = i then [q.update] else []) ++ askedOf i l := by
  unfold askedOf; by_cases h : q.caller = i <;> simp [h]
theorem answOf_cons (i q l) :
    answOf i (q :: l) = (if q.1 = i then [q.2] else []) ++ answOf i l := by
  unfold answOf; by_cases h : q.1 = i <;> simp [h]
theorem updsOf_single (i x) : updsOf i [x] = if x.1 = i then [x.2.1] else [] := by
  unfold updsOf; by_cases h : x.1 = i <;> simp [h]
theorem respsOf_single (i x) : respsOf i [x] = if x.1 = i then [x.2.2] else [] := by
  unfold respsOf; by_cases h : x.1 = i <;> simp [h]
theorem updsOf_cons (i x l) : updsOf i (x :: l) = (if x.1 = i then [x.2.1] else []) ++ updsOf i l := by
  unfold updsOf; by_cases h : x.1 = i <;> simp [h]
theorem respsOf_cons (i x l) : respsOf i (x :: l) = (if x.1 = i then [x.2.2] else []) ++ respsOf i l := by
  unfold respsOf; by_cases h : x.1 = i <;> simp [h]

theorem zip_upds (i : Nat) : ∀ (qs : List Req) (rs : List StateResponse), rs.length = qs.length →
    updsOf i (List.zipWith (fun q r => (q.caller, q.update, r)) qs rs) = askedOf i qs
  | [], _, _ => by simp [updsOf]
  | q :: qs, [], h => by simp at h
  | q :: qs, r :: rs, h => by
    simp only [List.zipWith_cons_cons, updsOf_cons, askedOf_cons]
    rw [zip_upds i qs rs (by simpa using h)]

theorem zip_resps (i : Nat) : ∀ (qs : List Req) (rs : List StateResponse),
    respsOf i (List.zipWith (fun q r => (q.caller, q.update, r)) qs rs) =
      answOf i (List.zipWith (fun q r => (q.caller, r)) qs rs)
  | [], _ => by simp [respsOf]
  | q :: qs, [] => by simp [respsOf]
  | q :: qs, r :: rs => by
    simp only [List.zipWith_cons_cons, respsOf_cons, answOf_cons]
    rw [zip_resps i qs rs]

theorem zip_callers {n : Nat} : ∀ (qs : List Req) (rs : List StateResponse),
    (∀ q ∈ qs, q.caller < n) →
    ∀ x ∈ List.zipWith (fun (q : Req) r => (q.caller, q.update, r)) qs rs, x.1 < n
  | [], _, _, x, hx => by simp at hx
  | q :: qs, [], _, x, hx => by simp at hx
  | q :: qs, r :: rs, h, x, hx => by
    simp only [List.zipWith_cons_cons, List.mem_cons] at hx
    rcases hx with rfl | hx
    · exact h q (by simp)
    · exact zip_callers qs rs (fun q hq => h q (by simp [hq])) x hx

theorem zip_callers' {n : Nat} : ∀ (qs : List Req) (rs : List StateResponse),
    (∀ q ∈ qs, q.caller < n) →
    ∀ x ∈ List.zipWith (fun (q : Req) (r : StateResponse) => (q.caller, r)) qs rs, x.1 < n
  | [], _, _, x, hx => by simp at hx
  | q :: qs, [], _, x, hx => by simp at hx
  | q :: qs, r :: rs, h, x, hx => by
    simp only [List.zipWith_cons_cons, List.mem_cons] at hx
    rcases hx with rfl | hx
    · exact h q (by simp)
    · exact zip_callers' qs rs (fun q hq => h q (by simp [hq])) x hx

theorem inv_init (m) : Inv (St.init m) where
  np := rfl
  ok := trivial
  inOk := trivial
  asked := by simp [St.init, Out.asked]
  answ := by simp [St.init, Out.answ]
  log := by simp [St.init]
  calls := by simp [St.init]

/-- A call's bookkeeping leaves room for one more result while one is on its way. -/
theorem CInv.len {log o i c} (h : CInv log o i c) :
    c.got.length + c.buf.length + (answOf i o.answ).length + (askedOf i o.asked).length
      + c.todo.length = c.ups.length := by
  have h1 := congrArg List.length h.upds
  have h2 := congrArg List.length h.resps
  have h3 := length_upds_resps i log
  simp only [List.length_append] at h1 h2
  omega

theorem updsOf_fresh {log : List (Nat × StateUpdate × StateResponse)} {n : Nat}
    (h : ∀ x ∈ log, x.1 < n) : updsOf n log = [] := by
  unfold updsOf
  rw [List.filter_eq_nil_iff.2]; · rfl
  intro x hx; have := h x hx; simp; omega
theorem respsOf_fresh {log : List (Nat × StateUpdate × StateResponse)} {n : Nat}
    (h : ∀ x ∈ log, x.1 < n) : respsOf n log = [] := by
  unfold respsOf
  rw [List.filter_eq_nil_iff.2]; · rfl
  intro x hx; have := h x hx; simp; omega
theorem askedOf_fresh {l : List Req} {n : Nat}
    (h : ∀ x ∈ l, x.caller < n) : askedOf n l = [] := by
  unfold askedOf
  rw [List.filter_eq_nil_iff.2]; · rfl
  intro x hx; have := h x hx; simp; omega
theorem answOf_fresh {l : List (Nat × StateResponse)} {n : Nat}
    (h : ∀ x ∈ l, x.1 < n) : answOf n l = [] := by
  unfold answOf
  rw [List.filter_eq_nil_iff.2]; · rfl
  intro x hx; have := h x hx; simp; omega

theorem inv_call {s : St} (h : Inv s) (k : Kind) (hk : k.Ok) :
    Inv { s with calls := s.calls ++ [Call.start k] } where
  np := h.np
  ok := h.ok
  inOk := h.inOk
  asked q hq := by have := h.asked q hq; simp; omega
  answ q hq := by have := h.answ q hq; simp; omega
  log q hq := by have := h.log q hq; simp; omega
  calls i c hc := by
    dsimp only at hc ⊢
    rcases Nat.lt_trichotomy i s.calls.length with hi | hi | hi
    · rw [List.getElem?_append_left hi] at hc; exact h.calls i c hc
    · subst hi
      simp at hc; subst hc
      have e1 := updsOf_fresh h.log
      have e2 := respsOf_fresh h.log
      have e3 := askedOf_fresh h.asked
      have e4 := answOf_fresh h.answ
      refine ⟨?_, ?_, ?_, ?_, ?_, ?_⟩ <;> cases k <;>
        simp_all [Call.start, Kind.Ok]
    · rw [List.getElem?_eq_none (by simp; omega)] at hc; simp at hc

/-- Replacing one call and the goroutine's state. -/
theorem inv_set {s : St} (h : Inv s) {i : Nat} {c c' : Call} (_hi : s.calls[i]? = some c) {o : Out}
    (ok : o.Ok) (hasked : ∀ q ∈ o.asked, q ∈ s.out.asked ∨ q.caller = i)
    (hansw : ∀ q ∈ o.answ, q ∈ s.out.answ)
    (hrest : ∀ j ≠ i, askedOf j o.asked = askedOf j s.out.asked ∧ answOf j o.answ = answOf j s.out.answ)
    (hc : CInv s.log s.out i c → CInv s.log o i c') :
    Inv { s with calls := s.calls.set i c', out := o } where
  np := h.np
  ok := ok
  inOk := h.inOk
  asked q hq := by
    have hl : i < s.calls.length := (List.getElem?_eq_some_iff.1 _hi).1
    rcases hasked q hq with hq | hq
    · simpa using h.asked q hq
    · simp [hq, hl]
  answ q hq := by simpa using h.answ q (hansw q hq)
  log q hq := by simpa using h.log q hq
  calls j d hd := by
    dsimp only at hd ⊢
    by_cases hj : j = i
    · subst hj
      have hl : j < s.calls.length := (List.getElem?_eq_some_iff.1 _hi).1
      rw [List.getElem?_set_self hl] at hd
      cases hd
      exact hc (h.calls j c _hi)
    · rw [List.getElem?_set_ne (Ne.symm hj)] at hd
      have H := h.calls j d hd
      obtain ⟨e1, e2⟩ := hrest j hj
      exact ⟨by rw [e1]; exact H.upds, by rw [e2]; exact H.resps, H.need, H.done, H.cap, H.buf⟩

theorem inv_submit {s s' : St} (thr : Int) (h : Inv s) {i} (e : submitStep thr s i = some s') : Inv s' := by
  unfold submitStep at e
  split at e
  next p c ho hc =>
    split at e
    · simp at e
    next u us ht =>
      simp only [Option.some.injEq] at e
      subst e
      refine inv_set h hc (by simp) ?_ (by simp) ?_ ?_
      · intro q hq; simp only [asked_afterReceive, List.mem_append, List.mem_singleton] at hq
        rcases hq with hq | rfl
        · left; simpa [ho, asked_c, asked_s, asked_d] using hq
        · right; rfl
      · intro j hj; simp [ho, asked_c, asked_s, asked_d, answ_c, answ_s, answ_d, askedOf_cons, Ne.symm hj]
      · intro H
        refine ⟨?_, ?_, H.need, ?_, H.cap, H.buf⟩
        · have := H.upds
          simp only [ho, ht, asked_c, asked_s, asked_d] at this
          simpa [askedOf_cons] using this
        · simpa [ho, answ_c, answ_s, answ_d] using H.resps
        · intro hd; have := (H.done hd).1; simp [ht] at this
  · simp at e

theorem inv_tick {s : St} (h : Inv s) {p} (ho : s.out = .collect p) : Inv { s with out := .flush p } where
  np := h.np
  ok := by simp
  inOk := h.inOk
  asked := by simpa [ho, asked_c, asked_s, asked_d] using h.asked
  answ := by simp
  log := h.log
  calls i c hc := by
    have H := h.calls i c hc
    exact ⟨by simpa [ho, asked_c, asked_s, asked_d] using H.upds, by simpa [ho, answ_c, answ_s, answ_d] using H.resps,
      H.need, H.done, H.cap, H.buf⟩

theorem inv_publish {s s' : St} (h : Inv s) {n1 n2} (e : publishStep s n1 n2 = some s') : Inv s' := by
  unfold publishStep at e
  split at e
  next q qs acc g ho hi =>
    simp only [Option.some.injEq] at e
    subst e
    have hqn : q.caller < s.calls.length := h.asked q (by simp [ho, asked_c, asked_s, asked_d])
    refine ⟨h.np, by simp, trivial, ?_, ?_, ?_, ?_⟩
    · intro x hx; apply h.asked; simp [ho, asked_c, asked_s, asked_d]; right; simpa using hx
    · intro x hx
      simp only [answ_afterSend, List.mem_append, List.mem_singleton] at hx
      rcases hx with hx | rfl
      · apply h.answ; simpa [ho, answ_c, answ_s, answ_d] using hx
      · exact hqn
    · intro x hx
      simp only [List.mem_append, List.mem_singleton] at hx
      rcases hx with hx | rfl
      · exact h.log x hx
      · exact hqn
    · intro i c hc
      have H := h.calls i c hc
      refine ⟨?_, ?_, H.need, H.done, H.cap, H.buf⟩
      · have := H.upds
        simp only [ho, asked_c, asked_s, asked_d, askedOf_cons] at this
        simpa [updsOf_single] using this
      · have := H.resps
        simp only [ho, answ_c, answ_s, answ_d] at this
        simp [respsOf_single, answOf_cons, this]
  · simp at e

theorem inv_sent {s s' : St} (h : Inv s) {rs} (e : sentStep s rs = some s') : Inv s' := by
  unfold sentStep at e
  split at e
  next q qs acc ho =>
    split at e
    next hl =>
      simp only [Option.some.injEq] at e
      subst e
      have hq : ∀ x ∈ q :: qs, x.caller < s.calls.length := by
        intro x hx; apply h.asked; simpa [ho, asked_c, asked_s, asked_d] using hx
      refine ⟨h.np, by simp, h.inOk, ?_, ?_, ?_, ?_⟩
      · simp
      · intro x hx; rw [answ_afterDeliver, List.mem_append] at hx
        rcases hx with hx | hx
        · apply h.answ; simpa [ho, answ_c, answ_s, answ_d] using hx
        · exact zip_callers' _ _ hq x hx
      · intro x hx
        simp only [List.mem_append] at hx
        rcases hx with hx | hx
        · exact h.log x hx
        · exact zip_callers _ _ hq x hx
      · intro i c hc
        have H := h.calls i c hc
        refine ⟨?_, ?_, H.need, H.done, H.cap, H.buf⟩
        · have := H.upds
          simp only [ho, asked_c, asked_s, asked_d] at this
          rw [updsOf_append, zip_upds i _ _ hl, asked_afterDeliver]
          simpa using this
        · have := H.resps
          simp only [ho, answ_c, answ_s, answ_d] at this
          rw [respsOf_append, zip_resps, this, answ_afterDeliver]
          simp
    · simp at e
  · simp at e

theorem inv_deliver {s s' : St} (h : Inv s) (e : deliverStep s = some s') : Inv s' := by
  unfold deliverStep at e
  split at e
  next i r ds ho =>
    split at e
    · simp at e
    next c hc =>
      have H := h.calls i c hc
      have hlen := H.len
      have h2 : (answOf i s.out.answ).length = 1 + (answOf i ds).length := by
        simp [ho, answ_c, answ_s, answ_d, answOf_cons]
        omega
      have hnd : c.done = false := by
        refine Bool.eq_false_iff.2 fun hd => ?_
        have := (H.done hd)
        have h3 := H.need
        rw [this.1] at hlen
        simp at hlen
        omega
      simp only [hnd, Bool.false_and, Bool.false_eq_true, if_false] at e
      split at e
      next hb =>
        simp only [Option.some.injEq] at e
        subst e
        refine inv_set h hc (by simp) (by simp) ?_ ?_ ?_
        · intro q hq; simp [ho, answ_c, answ_s, answ_d]; right; simpa using hq
        · intro j hj; simp [ho, asked_c, asked_s, asked_d, answ_c, answ_s, answ_d, answOf_cons, Ne.symm hj]
        · intro H
          refine ⟨by simpa [ho, asked_c, asked_s, asked_d] using H.upds, ?_, H.need, by simp, H.cap, by simp; omega⟩
          have := H.resps
          simp only [ho, answ_c, answ_s, answ_d, answOf_cons] at this
          simpa using this
      next hb =>
        split at e
        next hh =>
          simp only [Option.some.injEq] at e
          subst e
          simp only [Bool.and_eq_true, List.isEmpty_iff, decide_eq_true_eq, Bool.not_eq_true'] at hh
          refine inv_set h hc (by simp) (by simp) ?_ ?_ ?_
          · intro q hq; simp [ho, answ_c, answ_s, answ_d]; right; simpa using hq
          · intro j hj; simp [ho, asked_c, asked_s, asked_d, answ_c, answ_s, answ_d, answOf_cons, Ne.symm hj]
          · intro H
            have hn := H.need
            refine ⟨by simpa [ho, asked_c, asked_s, asked_d] using H.upds, ?_, by simp; omega, by simp [hnd], H.cap, H.buf⟩
            have := H.resps
            simp only [ho, answ_c, answ_s, answ_d, answOf_cons, hh.1.1.1] at this
            simpa [hh.1.1.1] using this
        · simp at e
  · simp at e

theorem inv_recv {s s' : St} (h : Inv s) {i} (e : recvStep s i = some s') : Inv s' := by
  unfold recvStep at e
  split at e
  · simp at e
  next c hc =>
    split at e
    next r rs ht hb =>
      split at e
      · simp at e
      next hn =>
        simp only [Option.some.injEq] at e
        subst e
        refine inv_set h hc h.ok (fun q hq => .inl hq) (fun q hq => hq) (fun j hj => ⟨rfl, rfl⟩) ?_
        intro H
        have h1 := H.need
        refine ⟨by simpa using H.upds, ?_, by simp; omega, ?_, H.cap, ?_⟩
        · have := H.resps; simp only [hb] at this; simpa using this
        · intro hd; exact absurd (H.done hd).2 hn
        · have := H.buf; simp [hb] at this; simp; omega
    · simp at e

theorem inv_ret {s s' : St} (h : Inv s) {i} (e : retStep s i = some s') : Inv s' := by
  unfold retStep at e
  split at e
  · simp at e
  next c hc =>
    split at e
    next hh =>
      simp only [Option.some.injEq] at e
      subst e
      simp only [Bool.and_eq_true, List.isEmpty_iff, decide_eq_true_eq, Bool.not_eq_true'] at hh
      refine inv_set h hc h.ok (fun q hq => .inl hq) (fun q hq => hq) (fun j hj => ⟨rfl, rfl⟩) ?_
      intro H
      exact ⟨H.upds, H.resps, H.need, fun _ => hh.1, H.cap, H.buf⟩
    · simp at e

theorem inv_inp {s : St} (h : Inv s) {a st ap} (ha : a.Ok) :
    Inv { s with inp := a, stream := st, applied := ap } :=
  ⟨h.np, h.ok, ha, h.asked, h.answ, h.log, h.calls⟩

theorem inv_push {n} {s s' : St} (h : Inv s) (e : pushStep n s = some s') : Inv s' := by
  unfold pushStep at e
  split at e
  · split at e
    · simp only [Option.some.injEq] at e; subst e
      exact inv_inp h (by simp)
    · simp at e
  · simp at e

theorem inv_drain {n} {s s' : St} (h : Inv s) (e : drainStep n s = some s') : Inv s' := by
  unfold drainStep at e
  split at e
  · simp only [Option.some.injEq] at e; subst e
    exact inv_inp (a := s.inp) h h.inOk
  · split at e
    · simp only [Option.some.injEq] at e; subst e
      exact inv_inp (st := s.stream) h (by simp)
    · simp at e
  · simp at e

theorem inv_step {b thr n} {s s' : St} (h : Inv s) {l : Lab}
    (hl : ∀ k, l = .call k → k.Ok) (e : step b thr n s l = some s') : Inv s' := by
  unfold step at e
  rw [if_neg (by simp [h.np])] at e
  cases l with
  | call k => simp only [Option.some.injEq] at e; subst e; exact inv_call h k (hl k rfl)
  | submit i => exact inv_submit thr h e
  | tick =>
    dsimp only at e
    split at e
    next p ho => simp only [Option.some.injEq] at e; subst e; exact inv_tick h ho
    · simp at e
  | publish n1 n2 =>
    dsimp only at e
    split at e
    · exact inv_publish h e
    · simp at e
  | sent rs =>
    dsimp only at e
    split at e
    · exact inv_sent h e
    · simp at e
  | polled us =>
    dsimp only at e
    split at e
    · split at e
      · simp only [Option.some.injEq] at e; subst e
        exact inv_inp (st := s.stream) (ap := s.applied) h (by simp)
      · simp at e
    · simp at e
  | getTick =>
    dsimp only at e
    split at e
    · split at e
      · simp only [Option.some.injEq] at e; subst e
        exact inv_inp (st := s.stream) (ap := s.applied) h (by simp)
      · simp at e
    · simp at e
  | push => exact inv_push h e
  | drain => exact inv_drain h e
  | deliver => exact inv_deliver h e
  | recv i => exact inv_recv h e
  | ret i => exact inv_ret h e

theorem inv_run {b thr n} : ∀ (ls : List Lab) {s s' : St}, Inv s → (∀ k ∈ kinds ls, k.Ok) →
    run b thr n s ls = some s' → Inv s'
  | [], s, s', h, _, e => by simp only [run, Option.some.injEq] at e; exact e ▸ h
  | l :: ls, s, s', h, hk, e => by
    simp only [run, Option.bind_eq_some_iff] at e
    obtain ⟨t, ht, e⟩ := e
    refine inv_run ls (inv_step h ?_ ht) ?_ e
    · intro k hk'; subst hk'; exact hk k (by simp [kinds])
    · intro k hk'; apply hk
      unfold kinds at hk' ⊢
      rw [List.filterMap_cons]
      cases l <;> simp_all

/-! ## The calls of a schedule -/

theorem map_ups_set {cs : List Call} {i : Nat} {c c' : Call} (h : cs[i]? = some c) (e : c'.ups = c.ups) :
    (cs.set i c').map (·.ups) = cs.map (·.ups) := by
  apply List.ext_getElem?
  intro j
  simp only [List.getElem?_map, List.getElem?_set]
  split
  next hij =>
    subst hij
    split
    · simp [h, e]
    next hl => rw [List.getElem?_eq_none (by omega)] at h; simp at h
  · rfl

theorem step_ups {b thr n} {s s' : St} {l : Lab} (e : step b thr n s l = some s') :
    s'.calls.map (·.ups) = s.calls.map (·.ups) ++ (kinds [l]).map Kind.updates := by
  unfold step at e
  split at e
  · simp at e
  cases l with
  | call k =>
    simp only [Option.some.injEq] at e; subst e
    cases k <;> simp [kinds, Call.start, Kind.updates]
  | submit i =>
    simp only [submitStep] at e
    split at e
    next hc =>
      split at e
      · simp at e
      · simp only [Option.some.injEq] at e; subst e
        refine Eq.trans ?_ (List.append_nil _).symm
        exact map_ups_set hc rfl
    · simp at e
  | tick =>
    dsimp only at e
    split at e
    · simp only [Option.some.injEq] at e; subst e; simp [kinds]
    · simp at e
  | deliver =>
    dsimp only at e
    unfold deliverStep at e
    repeat' split at e
    all_goals first
      | (simp only [Option.some.injEq] at e; subst e
         refine Eq.trans ?_ (List.append_nil _).symm
         first | rfl | (apply map_ups_set <;> first | assumption | rfl))
      | simp at e
  | recv i =>
    dsimp only at e
    unfold recvStep at e
    repeat' split at e
    all_goals first
      | (simp only [Option.some.injEq] at e; subst e
         refine Eq.trans ?_ (List.append_nil _).symm
         apply map_ups_set <;> first | assumption | rfl)
      | simp at e
  | ret i =>
    dsimp only at e
    unfold retStep at e
    repeat' split at e
    all_goals first
      | (simp only [Option.some.injEq] at e; subst e
         refine Eq.trans ?_ (List.append_nil _).symm
         apply map_ups_set <;> first | assumption | rfl)
      | simp at e
  | _ =>
    dsimp only [publishStep, sentStep, pushStep, drainStep] at e
    repeat' split at e
    all_goals first
      | (simp only [Option.some.injEq] at e; subst e; simp [kinds])
      | simp at e

theorem run_ups {b thr n} : ∀ (ls : List Lab) {s s' : St}, run b thr n s ls = some s' →
    s'.calls.map (·.ups) = s.calls.map (·.ups) ++ (kinds ls).map Kind.updates
  | [], s, s', e => by simp only [run, Option.some.injEq] at e; subst e; simp [kinds]
  | l :: ls, s, s', e => by
    simp only [run, Option.bind_eq_some_iff] at e
    obtain ⟨t, ht, e⟩ := e
    have hk : kinds (l :: ls) = kinds [l] ++ kinds ls := by
      unfold kinds; rw [← List.filterMap_append]; rfl
    rw [run_ups ls e, step_ups ht, hk]; simp

theorem headway_ups {b thr n} {s s' : St} {ls : List Lab} (H : Headway b thr n s ls s') :
    s'.calls.map (·.ups) = s.calls.map (·.ups) := by
  induction H with
  | nil s => rfl
  | cons hl e t ih =>
    rename_i l _
    have : kinds [l] = [] := by cases l <;> simp_all [headway, kinds]
    rw [ih, step_ups e, this]; simp

/-! ## No deadlock -/

theorem quiet_done {b thr n} {s : St} (h : Inv s) (q : Quiet b thr n s) :
    s.out = .collect [] ∧ s.stream = [] ∧ (b = .memory → s.inp = .reading []) ∧
    ∀ (i : Nat) (c : Call), s.calls[i]? = some c → c.done = true := by
  have hnp := h.np
  -- the incoming side has nothing left to push or drain
  have hstream : s.stream = [] := by
    have := q .drain rfl
    simp only [step, hnp, Bool.false_eq_true, if_false, drainStep] at this
    split at this
    · simp at this
    · assumption
    · assumption
  have hinp : ∃ g, s.inp = .reading g := by
    cases hi : s.inp with
    | reading g => exact ⟨g, rfl⟩
    | pushing r =>
      have hr := h.inOk
      rw [hi] at hr
      obtain ⟨u, us, rfl⟩ := List.exists_cons_of_ne_nil hr
      have h1 := q .push rfl
      have h2 := q .drain rfl
      simp only [step, hnp, Bool.false_eq_true, if_false, pushStep, drainStep, hi, hstream] at h1 h2
      simp at h1 h2
      omega
  obtain ⟨g, hg⟩ := hinp
  have hmem : b = .memory → s.inp = .reading [] := by
    intro hb
    cases g with
    | nil => exact hg
    | cons u us =>
      have := q .getTick (by simp [headway, hg])
      simp [step, hnp, hb, hg] at this
  -- the outgoing side is collecting nothing
  have hout : s.out = .collect [] := by
    cases ho : s.out with
    | collect p =>
      cases p with
      | nil => rfl
      | cons a as =>
        have := q .tick (by simp [headway, ho])
        simp [step, hnp, ho] at this
    | send r a =>
      have hr := h.ok
      rw [ho] at hr
      obtain ⟨u, us, rfl⟩ := List.exists_cons_of_ne_nil hr
      cases b with
      | memory =>
        have := q (.publish 0 0) rfl
        simp [step, hnp, publishStep, ho, hmem rfl] at this
      | other =>
        have := q (.sent ((u :: us).map fun _ => ⟨[], none⟩)) rfl
        simp [step, hnp, sentStep, ho] at this
    | deliver d =>
      have hr := h.ok
      rw [ho] at hr
      obtain ⟨⟨i, r⟩, ds, rfl⟩ := List.exists_cons_of_ne_nil hr
      have hi : i < s.calls.length := h.answ (i, r) (by simp [ho, answ_c, answ_s, answ_d])
      have hc : s.calls[i]? = some s.calls[i] := List.getElem?_eq_getElem hi
      generalize s.calls[i] = c at hc
      have H := h.calls i c hc
      have hlen := H.len
      have h2 : (answOf i s.out.answ).length = 1 + (answOf i ds).length := by
        simp [ho, answ_c, answ_s, answ_d, answOf_cons]
        omega
      have := q .deliver rfl
      simp only [step, hnp, Bool.false_eq_true, if_false, deliverStep, ho, hc] at this
      split at this
      · simp at this
      · split at this
        · simp at this
        next hb =>
          exfalso
          rcases H.cap with hcap | hcap
          · omega
          · have e1 : c.buf = [] := List.length_eq_zero_iff.1 (by omega)
            have e2 : c.todo = [] := List.length_eq_zero_iff.1 (by omega)
            have e3 : c.need = 1 := by have := H.need; omega
            have e4 : c.done = false := by
              refine Bool.eq_false_iff.2 fun hd => ?_
              have := (H.done hd).2
              omega
            simp [e1, e2, e3, e4] at this
  refine ⟨hout, hstream, hmem, ?_⟩
  intro i c hc
  have H := h.calls i c hc
  have hlen := H.len
  simp only [hout, answ_c, answ_s, answ_d, asked_c, asked_s, asked_d, answOf_nil, askedOf_nil, List.length_nil] at hlen
  refine Decidable.byContradiction fun hd => ?_
  have hd : c.done = false := by simpa using hd
  have ht : c.todo = [] := by
    cases ht : c.todo with
    | nil => rfl
    | cons u us =>
      have := q (.submit i) rfl
      simp [step, hnp, submitStep, hout, hc, ht] at this
  by_cases hn : c.need = 0
  · have := q (.ret i) rfl
    simp [step, hnp, retStep, hc, ht, hn, hd] at this
  · have := q (.recv i) rfl
    cases hb : c.buf with
    | nil => have := H.need; simp [hb, ht] at hlen; omega
    | cons r rs => simp [step, hnp, recvStep, hc, ht, hb, hn] at this

/-! ## Headway is finite -/

def Call.weight (c : Call) : Nat := 10 * c.todo.length + c.buf.length + (if c.done then 0 else 1)

def Out.weight : Out → Nat
  | .collect p => 9 * p.length
  | .send r a => 8 * r.length + 2 * a.length
  | .deliver d => 2 * d.length

def Inp.weight : Inp → Nat
  | .reading g => 4 * g.length
  | .pushing r => 3 * r.length

theorem wt_c (p) : (Out.collect p).weight = 9 * p.length := rfl
theorem wt_s (r a) : (Out.send r a).weight = 8 * r.length + 2 * a.length := rfl
theorem wt_d (d) : (Out.deliver d).weight = 2 * d.length := rfl
theorem wt_r (g) : (Inp.reading g).weight = 4 * g.length := rfl
theorem wt_p (g) : (Inp.pushing g).weight = 3 * g.length := rfl

def callsWeight (cs : List Call) : Nat := (cs.map Call.weight).sum

def weight (s : St) : Nat := callsWeight s.calls + s.out.weight + s.inp.weight + 2 * s.stream.length

theorem weight_flush (p) : (Out.flush p).weight = 8 * p.length := by cases p <;> simp [Out.flush, Out.weight]
theorem weight_afterReceive (t p) : (Out.afterReceive t p).weight ≤ 9 * p.length := by
  unfold Out.afterReceive; split
  · rw [weight_flush]; omega
  · exact Nat.le_refl _
theorem weight_afterDeliver (p) : (Out.afterDeliver p).weight = 2 * p.length := by
  cases p <;> simp [Out.afterDeliver, Out.weight]
theorem weight_afterSend (q p) : (Out.afterSend q p).weight = 8 * q.length + 2 * p.length := by
  cases q
  · simpa [Out.afterSend] using weight_afterDeliver p
  · rfl
theorem weight_afterPush (p) : (Inp.afterPush p).weight = 3 * p.length := by
  cases p <;> simp [Inp.afterPush, Inp.weight]

theorem callsWeight_set : ∀ (cs : List Call) (i : Nat) (c c' : Call), cs[i]? = some c →
    callsWeight (cs.set i c') + c.weight = callsWeight cs + c'.weight
  | [], i, c, c', h => by simp at h
  | d :: cs, 0, c, c', h => by
    simp at h; subst h; simp [callsWeight]; omega
  | d :: cs, i + 1, c, c', h => by
    simp at h
    have := callsWeight_set cs i c c' h
    simp only [callsWeight, List.set_cons_succ, List.map_cons, List.sum_cons] at this ⊢
    omega

theorem weight_step {b thr n} {s s' : St} (h : Inv s) {l : Lab} (hl : headway s l = true)
    (e : step b thr n s l = some s') : weight s' < weight s := by
  unfold step at e
  rw [if_neg (by simp [h.np])] at e
  cases l with
  | call k => simp [headway] at hl
  | polled us => simp [headway] at hl
  | submit i =>
    simp only [submitStep] at e
    split at e
    next p c ho hc =>
      split at e
      · simp at e
      next u us ht =>
        simp only [Option.some.injEq] at e; subst e
        have := callsWeight_set s.calls i c { c with todo := us } hc
        have h2 := weight_afterReceive thr (p ++ [⟨i, u⟩])
        simp only [List.length_append, List.length_singleton] at h2
        simp only [weight, ho, wt_c, wt_s, wt_d] at this ⊢
        simp only [Call.weight, ht, List.length_cons] at this
        omega
    · simp at e
  | tick =>
    dsimp only at e
    split at e
    next p ho =>
      simp only [Option.some.injEq] at e; subst e
      cases p with
      | nil => simp [headway, ho] at hl
      | cons a as => simp only [weight, ho, weight_flush, wt_c, wt_s, wt_d, List.length_cons]; omega
    · simp at e
  | publish n1 n2 =>
    dsimp only at e
    split at e
    · unfold publishStep at e
      split at e
      next q qs acc g ho hi =>
        simp only [Option.some.injEq] at e; subst e
        simp only [weight, ho, hi, weight_afterSend, wt_c, wt_s, wt_d, wt_r, wt_p, List.length_cons,
          List.length_append, List.length_nil]; omega
      · simp at e
    · simp at e
  | sent rs =>
    dsimp only at e
    split at e
    · unfold sentStep at e
      split at e
      next q qs acc ho =>
        split at e
        next hlen =>
          simp only [Option.some.injEq] at e; subst e
          simp only [weight, ho, weight_afterDeliver, wt_c, wt_s, wt_d, List.length_append, List.length_zipWith, hlen,
            List.length_cons]
          omega
        · simp at e
      · simp at e
    · simp at e
  | getTick =>
    dsimp only at e
    split at e
    · split at e
      next g hi =>
        simp only [Option.some.injEq] at e; subst e
        cases g with
        | nil => simp [headway, hi] at hl
        | cons a as => simp only [weight, hi, weight_afterPush, wt_r, wt_p, List.length_cons]; omega
      · simp at e
    · simp at e
  | push =>
    dsimp only at e
    unfold pushStep at e
    split at e
    next u us hi =>
      split at e
      · simp only [Option.some.injEq] at e; subst e
        simp only [weight, hi, weight_afterPush, wt_r, wt_p, List.length_cons, List.length_append,
          List.length_nil]; omega
      · simp at e
    · simp at e
  | drain =>
    dsimp only at e
    unfold drainStep at e
    split at e
    next u us hs =>
      simp only [Option.some.injEq] at e; subst e
      simp only [weight, hs, List.length_cons]; omega
    next u us hs hi =>
      split at e
      · simp only [Option.some.injEq] at e; subst e
        simp only [weight, hi, hs, weight_afterPush, wt_r, wt_p, List.length_cons]; omega
      · simp at e
    · simp at e
  | deliver =>
    dsimp only at e
    have hI := inv_deliver h e
    unfold deliverStep at e
    split at e
    next i r ds ho =>
      split at e
      · simp at e
      next c hc =>
        split at e
        · simp only [Option.some.injEq] at e; subst e; exact absurd hI.np (by simp)
        · split at e
          · simp only [Option.some.injEq] at e; subst e
            have := callsWeight_set s.calls i c { c with buf := c.buf ++ [r] } hc
            simp only [weight, ho, weight_afterDeliver, wt_c, wt_s, wt_d, List.length_cons]
            simp only [Call.weight, List.length_append, List.length_singleton] at this
            omega
          · split at e
            · simp only [Option.some.injEq] at e; subst e
              have := callsWeight_set s.calls i c { c with got := c.got ++ [r], need := c.need - 1 } hc
              simp only [weight, ho, weight_afterDeliver, wt_c, wt_s, wt_d, List.length_cons]
              simp only [Call.weight] at this
              omega
            · simp at e
    · simp at e
  | recv i =>
    dsimp only at e
    unfold recvStep at e
    split at e
    · simp at e
    next c hc =>
      split at e
      next r rs ht hb =>
        split at e
        · simp at e
        · simp only [Option.some.injEq] at e; subst e
          have := callsWeight_set s.calls i c { c with buf := rs, got := c.got ++ [r], need := c.need - 1 } hc
          simp only [Call.weight, hb, List.length_cons] at this
          simp only [weight]
          omega
      · simp at e
  | ret i =>
    dsimp only at e
    unfold retStep at e
    split at e
    · simp at e
    next c hc =>
      split at e
      next hh =>
        simp only [Option.some.injEq] at e; subst e
        simp only [Bool.and_eq_true, Bool.not_eq_true'] at hh
        have := callsWeight_set s.calls i c { c with done := true } hc
        simp only [Call.weight, hh.2, Bool.false_eq_true, if_false, if_true] at this
        simp only [weight]
        omega
      · simp at e

theorem headway_inv {b thr n} {s s' : St} {ls : List Lab} (H : Headway b thr n s ls s') (h : Inv s) :
    Inv s' ∧ ls.length + weight s' ≤ weight s := by
  induction H with
  | nil s => exact ⟨h, by simp⟩
  | cons hl e t ih =>
    have hi := inv_step h (by rintro k rfl; simp [headway] at hl) e
    have hw := weight_step h hl e
    obtain ⟨a, b⟩ := ih hi
    exact ⟨a, by simp only [List.length_cons]; omega⟩

/-! ## The in-memory store is a first-in first-out queue -/

def FIFO (s : St) : Prop :=
  s.log.map (fun x => replicatedAs x.2.1 x.2.2) = s.applied ++ s.stream ++ s.inp.items

theorem memPublished_eq (u r e) : memPublished u r = replicatedAs u ⟨r, e⟩ := by
  cases u with | mk c k v => cases c <;> simp [memPublished, replicatedAs]

theorem fifo_step {thr n} {s s' : St} {l : Lab} (h : FIFO s)
    (e : step .memory thr n s l = some s') : FIFO s' := by
  unfold FIFO at h ⊢
  unfold step at e
  split at e
  · simp at e
  cases l with
  | call k => simp only [Option.some.injEq] at e; subst e; exact h
  | polled us => simp at e
  | submit i =>
    simp only [submitStep] at e
    split at e
    · split at e
      · simp at e
      · simp only [Option.some.injEq] at e; subst e; exact h
    · simp at e
  | tick =>
    dsimp only at e
    split at e
    · simp only [Option.some.injEq] at e; subst e; exact h
    · simp at e
  | publish n1 n2 =>
    simp only [if_true, publishStep] at e
    split at e
    next q qs acc g ho hi =>
      simp only [Option.some.injEq] at e; subst e
      simp only [hi, items_r, items_p] at h
      simp only [List.map_append, h, List.map_cons, List.map_nil, items_r, items_p]
      rw [memPublished_eq _ _ none]; simp
    · simp at e
  | sent rs => simp at e
  | getTick =>
    simp only [if_true] at e
    split at e
    next g hi =>
      simp only [Option.some.injEq] at e; subst e
      simpa [hi, items_r, items_p] using h
    · simp at e
  | push =>
    dsimp only at e
    unfold pushStep at e
    split at e
    next u us hi =>
      split at e
      · simp only [Option.some.injEq] at e; subst e
        simpa [hi, items_r, items_p] using h
      · simp at e
    · simp at e
  | drain =>
    dsimp only at e
    unfold drainStep at e
    split at e
    next u us hs =>
      simp only [Option.some.injEq] at e; subst e
      simpa [hs] using h
    next u us hs hi =>
      split at e
      · simp only [Option.some.injEq] at e; subst e
        simpa [hs, hi, items_r, items_p] using h
      · simp at e
    · simp at e
  | deliver =>
    dsimp only at e
    unfold deliverStep at e
    repeat' split at e
    all_goals first
      | (simp only [Option.some.injEq] at e; subst e; exact h)
      | simp at e
  | recv i =>
    dsimp only at e
    unfold recvStep at e
    repeat' split at e
    all_goals first
      | (simp only [Option.some.injEq] at e; subst e; exact h)
      | simp at e
  | ret i =>
    dsimp only at e
    unfold retStep at e
    repeat' split at e
    all_goals first
      | (simp only [Option.some.injEq] at e; subst e; exact h)
      | simp at e

theorem fifo_run {thr n} : ∀ (ls : List Lab) {s s' : St}, FIFO s →
    run .memory thr n s ls = some s' → FIFO s'
  | [], s, s', h, e => by simp only [run, Option.some.injEq] at e; exact e ▸ h
  | l :: ls, s, s', h, e => by
    simp only [run, Option.bind_eq_some_iff] at e
    obtain ⟨t, ht, e⟩ := e
    exact fifo_run ls (fifo_step h ht) e

end OM.Pipe
