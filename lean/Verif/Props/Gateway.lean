import Verif.Lemmas.Gateway
/-!
# The REST interface (C98)
-/
namespace OM.Props
open OM.Gw

/-- C98.  A request reaches an RPC exactly when the interface (proto/v2/api.yaml) has its
method and path for that RPC. -/
theorem C98_routes (m ct ov p : Str) (r : Rpc) :
    serve m ct ov p = .rpc r ↔ (Spec.method m ct ov, p, r) ∈ Spec.api := by
  constructor
  · intro h
    match p, h with
    | [], h => simp [serve] at h
    | c :: rest, h =>
      by_cases hc : c = '/'
      · subst hc
        rw [serve_slash] at h
        rw [mem_api]
        split at h
        · rename_i a ha
          subst h
          obtain ⟨k, hk, h1, h2⟩ := dispatch_some _ _ (fun h hh => good_handlers h (List.mem_filter.1 hh).1) r ha
          exact ⟨k, (List.mem_filter.1 hk).1, by simpa using (List.mem_filter.1 hk).2, h1, h2⟩
        · split at h <;> simp at h
      · exfalso
        unfold serve at h
        split at h
        · rename_i heq; exact hc (List.cons.inj heq).1
        · simp at h
  · intro h
    obtain ⟨rest, rfl⟩ := api_slash h
    obtain ⟨k, hk, h1, h2, h3⟩ := mem_api.1 h
    rw [serve_slash, h3, dispatch_target _ (fun h hh => good_handlers h (List.mem_filter.1 hh).1) k
      (List.mem_filter.2 ⟨hk, by simpa using h1⟩)
      (fun x hx he => (target_inj x (List.mem_filter.1 hx).1 k hk he).1)]
    simp [h2]

example : serve "POST".toList "application/json".toList [] "/v2/tickets:activate".toList = .rpc .activateTickets :=
  (C98_routes _ _ _ _ _).2 (by decide +kernel)

example : serve "GET".toList [] [] "/v2/tickets".toList = .refused 501 ∧
    serve "POST".toList [] [] "/v2/tickets/".toList = .refused 404 ∧
    serve "POST".toList [] [] "/v2/:activate".toList = .refused 404 := by decide +kernel

/-- C98.  A path of the interface asked with another method is answered with status 501, any
other path with 404 (400 if it has no leading slash). -/
theorem C98_refusals (m ct ov p : Str) (hno : ∀ r, (Spec.method m ct ov, p, r) ∉ Spec.api) :
    serve m ct ov p =
      .refused (if ∃ x ∈ Spec.api, x.2.1 = p then 501 else if p.head? = some '/' then 404 else 400) := by
  match p, hno with
  | [], _ =>
    rw [if_neg (by rintro ⟨⟨a, b, c⟩, hx, rfl⟩; obtain ⟨_, h⟩ := api_slash hx; simp at h)]
    rfl
  | c :: rest, hno =>
    by_cases hc : c = '/'
    · subst hc
      have hg : ∀ h ∈ handlers.filter (fun h => h.method = Spec.method m ct ov), Good h :=
        fun h hh => good_handlers h (List.mem_filter.1 hh).1
      have hn : ∀ h ∈ handlers.filter (fun h => h.method = Spec.method m ct ov), split '/' rest ≠ target h := by
        intro h hh he
        obtain ⟨h1, h2⟩ := List.mem_filter.1 hh
        exact hno h.rpc (mem_api.2 ⟨h, h1, by simpa using h2, rfl, he⟩)
      rw [serve_slash]
      by_cases hk : ∃ x ∈ Spec.api, x.2.1 = '/' :: rest
      · rw [if_pos hk]
        obtain ⟨⟨m', p', r⟩, hx, rfl⟩ := hk
        obtain ⟨k, hk, h1, h2, h3⟩ := mem_api.1 hx
        rw [h3] at hn ⊢
        rw [dispatch_known k (good_handlers k hk) _ hg (fun h hh he => hn h hh he)]
        dsimp only
        rw [if_pos]
        rw [List.any_eq_true]
        refine ⟨k, List.mem_filter.2 ⟨hk, ?_⟩, (tryHandler_iff k (good_handlers k hk) _).2 rfl⟩
        refine decide_eq_true fun he => ?_
        exact hn k (List.mem_filter.2 ⟨hk, by simpa using he⟩) rfl
      · rw [if_neg hk, if_pos (show ('/' :: rest).head? = some '/' from rfl)]
        rcases dispatch_other _ _ hg hn with h0 | h0
        · rw [h0]
          dsimp only
          rw [if_neg]
          rw [List.any_eq_true]
          rintro ⟨k, hkm, ht⟩
          have hkh := (List.mem_filter.1 hkm).1
          exact hk ⟨(k.method, '/' :: rest, k.rpc),
            mem_api.2 ⟨k, hkh, rfl, rfl, (tryHandler_iff k (good_handlers k hkh) _).1 ht⟩, rfl⟩
        · rw [h0]
    · have h1 : serve m ct ov (c :: rest) = .refused 400 := by
        unfold serve
        split
        · rename_i heq; exact absurd (List.cons.inj heq).1 hc
        · rfl
      rw [h1, if_neg, if_neg]
      · simpa using hc
      · rintro ⟨⟨a, b, d⟩, hx, hp⟩
        obtain ⟨_, h⟩ := api_slash hx
        dsimp only at hp
        rw [hp] at h
        exact hc (List.cons.inj h).1

/-- The three answers, on requests the interface does not have. -/
example : serve "PUT".toList [] [] "/v2/tickets".toList = .refused 501 ∧
    serve "POST".toList [] [] "/v1/tickets".toList = .refused 404 ∧ serve "POST".toList [] [] "v2/tickets".toList = .refused 400 := by
  decide +kernel

/-- C98.  The URLs of the example matchmaker reach the calls it means
(matchmaker-example/main.go:271, :455, :672), whatever it sends along. -/
theorem C98_example_urls (ct : Str) :
    serve "POST".toList ct [] (examplePath "tickets".toList) = .rpc .createTicket ∧
    serve "POST".toList ct [] (examplePath "tickets:activate".toList) = .rpc .activateTickets ∧
    serve "POST".toList ct [] (examplePath "matches:fetch".toList) = .rpc .invokeMmfs := by
  have hm : Spec.method "POST".toList ct [] = "POST".toList := by simp [Spec.method]
  refine ⟨(C98_routes _ _ _ _ _).2 ?_, (C98_routes _ _ _ _ _).2 ?_, (C98_routes _ _ _ _ _).2 ?_⟩ <;>
    rw [hm] <;> decide +kernel

/-- A watch for nobody: nothing found, nothing started. -/
def Idle (s : Watch.St) : Prop :=
  s.sent = [] ∧ s.gos = [] ∧ s.crashed = false ∧ (s.main = .starting 0 ∨ s.main = .select 0 ∨ s.main = .returned false)

theorem idle_step (cfg : Config) (now : Int) (s t : Watch.St) (l : Watch.Label) (h : Idle s)
    (ht : Watch.step cfg now [] s l = some t) : Idle t := by
  obtain ⟨h1, h2, h4, h3⟩ := h
  unfold Watch.step at ht
  rw [h4] at ht
  simp only [Bool.false_eq_true, if_false] at ht
  cases l with
  | tick x =>
    dsimp only at ht
    split at ht
    · injection ht with ht; subst ht; exact ⟨h1, h2, rfl, h3⟩
    · simp at ht
  | cacheSet c => injection ht with ht; subst ht; exact ⟨h1, h2, rfl, h3⟩
  | launch => rcases h3 with h3 | h3 | h3 <;> simp [h3] at ht
  | begin =>
    rcases h3 with h3 | h3 | h3 <;> simp only [h3, List.length_nil, if_true, reduceCtorEq] at ht
    injection ht with ht; subst ht; exact ⟨h1, h2, rfl, .inr (.inl rfl)⟩
  | poll j => simp [h2] at ht
  | take j => rcases h3 with h3 | h3 | h3 <;> simp [h3, h2] at ht
  | sent => rcases h3 with h3 | h3 | h3 <;> simp [h3] at ht
  | timeout => rcases h3 with h3 | h3 | h3 <;> simp [h3] at ht
  | finish =>
    rcases h3 with h3 | h3 | h3 <;> simp only [h3, List.length_nil, if_true, reduceCtorEq] at ht
    injection ht with ht; subst ht; exact ⟨h1, h2, rfl, .inr (.inr rfl)⟩
  | crash j => rcases h3 with h3 | h3 | h3 <;> simp [h3, h2] at ht

/-- C98.  A request without a body is the empty message: creating, (de)activating, assigning
and invoking refuse it (status 400) before anything is queued, and a watch ends at once. -/
theorem C98_empty_body (cd : Codec) (cfg : Config) (now : Int) (cmd : Cmd) (cache : GoMap Assignment) :
    (∃ t e, requestOf none (Body.eof (α := Option Ticket)) = .ok t ∧
      createTicketQueue cd cfg now t = .error e ∧ httpStatus e.code = 400) ∧
    (∃ ids e, requestOf [] (Body.eof (α := List Str)) = .ok ids ∧
      activeStateQueue cfg cmd ids = .error e ∧ httpStatus e.code = 400) ∧
    (∃ r e, requestOf none (Body.eof (α := Option Roster)) = .ok r ∧
      createAssignmentsQueue cd r = .error e ∧ httpStatus e.code = 400) ∧
    (∃ q e, requestOf (none, []) (Body.eof (α := Option Profile × List Relay.Mmf)) = .ok q ∧
      Relay.validate q.1 q.2 = some e ∧ httpStatus e.code = 400) ∧
    (∃ ids, requestOf [] (Body.eof (α := List Str)) = .ok ids ∧ ∀ ls s,
      Watch.run cfg now ids (Watch.init now cache) ls = some s → s.sent = [] ∧ s.gos = [] ∧
        (s.main = .returned false ∨ ∃ l t, Watch.step cfg now ids s l = some t ∧
          (t.main = .returned false ∨ ∃ l t', Watch.step cfg now ids t l = some t' ∧ t'.main = .returned false))) := by
  refine ⟨⟨none, _, rfl, rfl, rfl⟩, ⟨[], _, rfl, rfl, rfl⟩, ⟨none, _, rfl, rfl, rfl⟩, ⟨(none, []), _, rfl, rfl, rfl⟩,
    ⟨[], rfl, ?_⟩⟩
  have key : ∀ (ls : List Watch.Label) (s s' : Watch.St), Idle s → Watch.run cfg now [] s ls = some s' → Idle s' := by
    intro ls
    induction ls with
    | nil =>
      intro s s' h1 h
      simp only [Watch.run, Option.some.injEq] at h
      exact h ▸ h1
    | cons l ls ih =>
      intro s s' h1 h
      rw [Watch.run] at h
      obtain ⟨t, ht, hr⟩ := Option.bind_eq_some_iff.1 h
      exact ih t s' (idle_step cfg now s t l h1 ht) hr
  intro ls s h
  obtain ⟨h1, h2, h4, h3⟩ := key ls _ s ⟨rfl, rfl, rfl, .inl rfl⟩ h
  refine ⟨h1, h2, ?_⟩
  rcases h3 with h3 | h3 | h3
  · refine .inr ⟨.begin, _, by simp only [Watch.step, h3, h4]; rfl, .inr ⟨.finish, _, by simp only [Watch.step]; rfl, rfl⟩⟩
  · exact .inr ⟨.finish, _, by simp only [Watch.step, h3, h4]; rfl, .inl rfl⟩
  · exact .inl h3

end OM.Props
