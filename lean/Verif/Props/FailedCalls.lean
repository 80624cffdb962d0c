import Verif.Model.FailedCalls
import Verif.Props.Frontend
/-!
# Property C147: what becomes of the example's calls that fail
-/
namespace OM.Props
open OM.Spec OM.PJ

theorem asActivated_known {e : Env} (hd : e.opts.discard = false) {ms : List (Str × Json)} (hc : ms ≠ []) :
    Front.asActivated e (.obj ms) = none := by
  have hn : NamesOf "ActivateTicketsResponse" [] := by decide +kernel
  cases hu : message e.opts [] (.obj ms) with
  | none => simp [Front.asActivated, hu]
  | some v =>
    obtain ⟨hj, hk⟩ := (message_iff hn e _ v).mp hu
    cases hj
    rcases hk with hk | hk
    · rw [hd] at hk; cases hk
    · obtain ⟨x, hx⟩ := List.exists_mem_of_ne_nil _ hc
      obtain ⟨f, ty, n, ⟨d, hd1, hd2, hd3⟩, -⟩ := hk x hx
      have key : ∀ d ∈ published, d.1 = "ActivateTicketsResponse" → d.2 = [] := by decide +kernel
      rw [key d hd1 hd2] at hd3
      cases hd3

theorem unmarshal_doc {α : Type} {dec : Json → Option α} {j : Json} {t : Str} (h : JDoc j t) : unmarshal dec t = dec j := by
  rw [unmarshal, (Json.read_iff t j).mpr h]
  rfl

/-- The gateway's bodies for errors are objects with members. -/
theorem statusBody_doc {sep : Str} (hs : Ws sep) (s : Front.Status) :
    ∃ ms, JDoc (.obj ms) ((marshal (fun s => some (Front.statusJson s)) false sep s).getD Front.fallback) ∧ ∃ x ∈ ms, x.1 = "code".toList := by
  rw [marshal, Option.bind_some]
  by_cases ht : (Front.statusJson s).textOk = true
  · refine ⟨[("code".toList, .num (fmtInt s.code)), ("message".toList, .str s.msg), ("details".toList, .arr [])], ?_,
      ⟨_, List.mem_cons_self, rfl⟩⟩
    rw [if_pos ht, Option.getD_some]
    refine Json.write_doc false hs ?_ ht
    obtain ⟨neg, i, hn, -⟩ := number_fmtInt (s.code : Int)
    exact ⟨⟨neg, i, [], 0, hn⟩, trivial, trivial, trivial⟩
  · rw [if_neg ht, Option.getD_none]
    exact fallback_doc

theorem activated_ok {e : Env} {sep : Str} (hs : Ws sep) :
    unmarshal (Front.asActivated e) (Front.activatedBody sep (.ok ())) = some () := by
  have hd : JDoc (.obj []) (Front.activatedBody sep (.ok ())) := by
    rw [Front.activatedBody, marshal, Option.bind_some, if_pos (by rfl), Option.getD_some]
    exact Json.write_doc false hs trivial (by rfl)
  rw [unmarshal_doc hd]
  have hn : NamesOf "ActivateTicketsResponse" [] := by decide +kernel
  have : message e.opts [] (.obj []) = some [] := (message_iff hn e _ _).mpr ⟨rfl, .inr (by simp)⟩
  simp [Front.asActivated, this]

/-- **C147 (partial).** The example's log gets an error for exactly those of its calls that fail, over gRPC
as over REST.  Over gRPC it is om-core's code and message.  Missing: what went wrong, over REST
(`C147_reason_refuted`), and another attempt (`C147_tried_again_refuted`). -/
theorem C147_logged_partial {e : Env} (he : EnvOk e) (hd : e.opts.discard = false) (sep : Str) (hs : Ws sep) :
    (∀ r, Front.activationLog e (.grpc r) = [] ↔ r = .ok ()) ∧
    (∀ r, Front.activationLog e (.rest (some (Front.activatedBody sep r))) = [] ↔ r = .ok ()) ∧
    (∀ id, IsText id → Front.creationLog e (.grpc (.ok id)) = [] ∧ Front.creationLog e (.rest (some (Front.restBody e sep (.ok id)))) = []) ∧
    (∀ s, Front.creationLog e (.rest (some (Front.restBody e sep (.error s)))) ≠ []) ∧
    Front.activationLog e (.rest none) ≠ [] ∧ Front.creationLog e (.rest none) ≠ [] ∧
    (∀ s, Front.activationLog e (.grpc (.error s)) = [.failed (.status s)] ∧ Front.creationLog e (.grpc (.error s)) = [.failed (.status s)]) := by
  refine ⟨?_, ?_, fun id hid => ⟨rfl, ?_⟩, fun s => ?_, by simp [Front.activationLog], by simp [Front.creationLog], fun s => ⟨rfl, rfl⟩⟩
  · rintro (s | ⟨⟩) <;> simp [Front.activationLog]
  · rintro (s | ⟨⟩)
    · obtain ⟨ms, h1, x, hx, -⟩ := statusBody_doc hs s
      have : unmarshal (Front.asActivated e) (Front.activatedBody sep (.error s)) = none := by
        rw [Front.activatedBody, unmarshal_doc h1]
        exact asActivated_known hd (List.ne_nil_of_mem hx)
      simp [Front.activationLog, this]
    · simp [Front.activationLog, activated_ok hs]
  · obtain ⟨t, h1, h2⟩ := C111_id_returns he sep hs id hid
    simp [Front.creationLog, Front.restBody, h1, h2]
  · obtain ⟨ms, h1, h2⟩ := statusBody_doc hs s
    have : unmarshal (asCreated e) (Front.restBody e sep (.error s)) = none := by
      rw [Front.restBody]; exact not_created hd h1 h2
    simp [Front.creationLog, this]

/-- **C147 (refuted: the reason).** Over REST, the default, no error line of the example depends on what
om-core answered: a refused request, a full queue and an unreachable Redis look alike.  Of a failed activation there is
only one line, on an answer that cannot be read; that the activation failed is not said. -/
theorem C147_reason_refuted {e : Env} (hd : e.opts.discard = false) (sep : Str) (hs : Ws sep) (s s' : Front.Status) :
    Front.activationLog e (.rest (some (Front.activatedBody sep (.error s)))) =
      Front.activationLog e (.rest (some (Front.activatedBody sep (.error s')))) ∧
    Front.creationLog e (.rest (some (Front.restBody e sep (.error s)))) =
      Front.creationLog e (.rest (some (Front.restBody e sep (.error s')))) ∧
    Front.activationLog e (.rest (some (Front.activatedBody sep (.error s)))) = [.cannotUnmarshal] ∧
    (∀ o, Front.activationLog e (.rest o) = [] ∨ Front.activationLog e (.rest o) = [.cannotPost] ∨
      Front.activationLog e (.rest o) = [.cannotUnmarshal]) ∧
    Front.creationLog e (.rest (some (Front.restBody e sep (.error s)))) = [.cannotUnmarshal, .failed .syntax] := by
  have h1 : ∀ s, unmarshal (Front.asActivated e) (Front.activatedBody sep (.error s)) = none := by
    intro s
    obtain ⟨ms, h1, x, hx, -⟩ := statusBody_doc hs s
    rw [Front.activatedBody, unmarshal_doc h1]
    exact asActivated_known hd (List.ne_nil_of_mem hx)
  have h2 : ∀ s, unmarshal (asCreated e) (Front.restBody e sep (.error s)) = none := by
    intro s
    obtain ⟨ms, h1, h2⟩ := statusBody_doc hs s
    rw [Front.restBody]; exact not_created hd h1 h2
  refine ⟨by simp [Front.activationLog, h1], by simp [Front.creationLog, h2], by simp [Front.activationLog, h1], ?_,
    by simp [Front.creationLog, h2]⟩
  rintro (_ | b)
  · exact .inr (.inl rfl)
  · simp only [Front.activationLog]
    split <;> simp

theorem calls_step {s s' : Mm.St} {l : Mm.Lbl} (h : s.step l = some s') : s.calls <+: s'.calls := by
  cases l with
  | main =>
    simp only [Mm.St.step, Mm.St.main] at h
    split at h <;> repeat' split at h
    all_goals first
      | (cases h; exact List.prefix_refl _)
      | (cases h; exact List.prefix_append _ _)
      | cases h
  | _ =>
    simp only [Mm.St.step] at h
    split at h
    · cases h; exact List.prefix_refl _
    · cases h

theorem frontCalls_step {e : Env} {s s' : Front.St} {l : Front.Lbl} (h : s.step e l = some s') : s.calls <+: s'.calls := by
  cases l with
  | created r =>
    simp only [Front.St.step, Option.map_eq_some_iff] at h
    obtain ⟨c, hc, rfl⟩ := h
    exact (List.prefix_append_right_inj _).mpr (calls_step hc)
  | inner x =>
    cases x with
    | push id => simp [Front.St.step] at h
    | _ =>
      simp only [Front.St.step, Option.map_eq_some_iff] at h
      obtain ⟨c, hc, rfl⟩ := h
      exact (List.prefix_append_right_inj _).mpr (calls_step hc)
  | again =>
    simp only [Front.St.step] at h
    split at h
    · cases h
      simp [Front.St.calls, Mm.St.init]
    · cases h

theorem frontCalls_run {e : Env} (evs : List Front.Lbl) : ∀ {s s' : Front.St}, s.run e evs = some s' → s.calls <+: s'.calls := by
  induction evs with
  | nil => intro s s' h; cases h; exact List.prefix_refl _
  | cons l evs ih =>
    intro s s' h
    rw [Front.St.run, Option.bind_eq_some_iff] at h
    obtain ⟨s1, h1, h2⟩ := h
    exact (frontCalls_step h1).trans (ih h2)

theorem frontRun_append {e : Env} (a b : List Front.Lbl) (s : Front.St) : s.run e (a ++ b) = (s.run e a).bind fun s => s.run e b := by
  induction a generalizing s with
  | nil => rfl
  | cons l a ih =>
    rw [List.cons_append, Front.St.run, Front.St.run, Option.bind_assoc]
    exact congrArg _ (funext fun s => ih s)

/-- **C147 (refuted: another attempt).** However an activation ends: in no execution of the frontend is a ticket
that was created once, and named in a call, named in another call. -/
theorem C147_tried_again_refuted (e : Env) (evs more : List Front.Lbl) (s s' : Front.St)
    (hr : Front.St.init.run e evs = some s) (hr' : s.run e more = some s') (id : Str)
    (h1 : ((replies (evs ++ more)).map (Front.ticketId e)).count id = 1) (hc : id ∈ s.calls.flatten) :
    s.calls.flatten.count id = 1 ∧ s'.calls.flatten.count id = 1 := by
  have h0 : FrontInv [] Front.St.init := ⟨⟨[], [], rfl, rfl⟩, by simp [Front.St.init]⟩
  have hrun : Front.St.init.run e (evs ++ more) = some s' := by rw [frontRun_append, hr, Option.bind_some, hr']
  obtain ⟨⟨q0, ls, hm, hi⟩, -⟩ := front_inv _ h0 hrun
  rw [List.nil_append] at hi
  have hle : s'.calls.flatten.count id ≤ 1 := by
    rw [← h1, ← hi, ← (Mm.inv hm).split, Front.St.calls]
    simp only [List.flatten_append, List.count_append]
    omega
  obtain ⟨t, ht⟩ := frontCalls_run more hr'
  have hge : s.calls.flatten.count id ≤ s'.calls.flatten.count id := by
    rw [← ht, List.flatten_append, List.count_append]; omega
  have := List.count_pos_iff.mpr hc
  omega
/-- The example's side of the connection. -/
def clientEnv : Env := ⟨bitsText, wellKnown, exampleOpts⟩

theorem clientEnv_ok : EnvOk clientEnv := wellKnown_ok (fun x _ _ _ => bitsText_ok x) _

/-- The three tickets of `frontRun` are in one call; whether it fails or not, the frontend goes on with the next
ticket and never returns to them. -/
example : ((Front.St.init.run clientEnv frontRun).bind fun s => s.run clientEnv (.again :: .created (.grpc (.ok "3-0".toList)) :: List.replicate 7 (.inner .main))).map
    (fun s => (s.calls, s.cur.queue, s.cur.pc)) = some ([["1-0".toList, [], "2-0".toList], ["3-0".toList]], [], .returned) := by decide +kernel

/-- A full queue (code 8) over REST and over gRPC. -/
example : Front.activationLog clientEnv (.rest (some (Front.activatedBody [] (.error ⟨8, "full".toList⟩)))) = [.cannotUnmarshal] ∧
    Front.activationLog clientEnv (.grpc (.error ⟨8, "full".toList⟩)) = [.failed (.status ⟨8, "full".toList⟩)] ∧
    Front.activationLog clientEnv (.rest (some (Front.activatedBody [] (.ok ())))) = [] := by decide +kernel

end OM.Props
