import Verif.Lemmas.Descriptor
/-!
# C150: gRPC calls reach the function of their name
-/
namespace OM.Props
open OM.Desc OM.Spec OM.Wire
open OM.Gw (Rpc)

set_option maxRecDepth 100000 in
/-- **C150.**  The descriptors declare the published services: names, requests, responses and who streams. -/
theorem C150_declared :
    services rawApi = [("open_match.v2.OpenMatchService".toList, publishedMethods.map methodDecl)] ∧
      services rawMmf = [("open_match.v2.MatchMakingFunctionService".toList, [methodDecl publishedRun])] := by
  simp only [publishedMethods, publishedRun, methodDecl, List.map, toListLit]
  decide +kernel

/-- **C150.**  The service tables have a handler for each published method, among the streams exactly if one side streams; it reads the declared
request, calls the function of the method's name and sends the declared response. -/
theorem C150_tables :
    (∀ m ∈ publishedMethods, ∃ r, named r = m.1.toList ∧
      entry m.1 r m.2.1 m.2.2.1 ∈ (if m.2.2.2.1 || m.2.2.2.2 then openMatch.streams else openMatch.methods)) ∧
    (∀ e ∈ openMatch.methods ++ openMatch.streams, ∃ m ∈ publishedMethods, e = entry m.1 e.2.1 m.2.1 m.2.2.1 ∧ named e.2.1 = m.1.toList) ∧
    mmfService.methods = [] ∧ mmfService.streams = [entry publishedRun.1 () publishedRun.2.1 publishedRun.2.2.1] := by
  refine ⟨fun m hm => ?_, fun e he => ?_, rfl, rfl⟩
  · simp only [publishedMethods, List.mem_cons, List.not_mem_nil, or_false] at hm
    rcases hm with rfl | rfl | rfl | rfl | rfl | rfl
    · exact ⟨.createTicket, rfl, .head _⟩
    · exact ⟨.deactivateTickets, rfl, .tail _ (.head _)⟩
    · exact ⟨.activateTickets, rfl, .tail _ (.tail _ (.head _))⟩
    · exact ⟨.invokeMmfs, rfl, .head _⟩
    · exact ⟨.createAssignments, rfl, .tail _ (.tail _ (.tail _ (.head _)))⟩
    · exact ⟨.watchAssignments, rfl, .tail _ (.head _)⟩
  · revert he
    delta openMatch
    dsimp only [List.cons_append, List.nil_append]
    intro he
    simp only [List.mem_cons, List.not_mem_nil, or_false] at he
    rcases he with rfl | rfl | rfl | rfl | rfl | rfl
    · exact ⟨_, .head _, rfl, rfl⟩
    · exact ⟨_, .tail _ (.head _), rfl, rfl⟩
    · exact ⟨_, .tail _ (.tail _ (.head _)), rfl, rfl⟩
    · exact ⟨_, .tail _ (.tail _ (.tail _ (.tail _ (.head _)))), rfl, rfl⟩
    · exact ⟨_, .tail _ (.tail _ (.tail _ (.head _))), rfl, rfl⟩
    · exact ⟨_, .tail _ (.tail _ (.tail _ (.tail _ (.tail _ (.head _))))), rfl, rfl⟩

/-! ## The tables, evaluated -/

def namedC : Rpc → Str
  | .createTicket => cs! "CreateTicket"
  | .deactivateTickets => cs! "DeactivateTickets"
  | .activateTickets => cs! "ActivateTickets"
  | .invokeMmfs => cs! "InvokeMatchmakingFunctions"
  | .createAssignments => cs! "CreateAssignments"
  | .watchAssignments => cs! "WatchAssignments"

theorem named_eq (r : Rpc) : named r = namedC r := by
  cases r <;> delta named namedC <;> dsimp only <;> simp only [toListLit]

def openMatchC : List (Str × Rpc) :=
  [.createTicket, .deactivateTickets, .activateTickets, .createAssignments, .invokeMmfs, .watchAssignments].map fun r => (namedC r, r)

theorem openMatch_eq : (openMatch.methods ++ openMatch.streams).map (fun e => (e.1, e.2.1)) = openMatchC := by
  delta openMatch openMatchC entry namedC
  dsimp only [List.map, List.cons_append, List.nil_append]
  simp only [toListLit]

theorem find_map {F : Type} (l : List (Str × F × Str × Str)) (m : Str) :
    (l.find? fun e => e.1 = m).map (·.2.1) = ((l.map fun e => (e.1, e.2.1)).find? fun e => e.1 = m).map (·.2) := by
  rw [List.find?_map, Option.map_map]; rfl

/-! ## Routing -/

theorem route_calls {F : Type} {d : ServiceDesc F} {p : Str} {f : F} :
    route d ('/' :: p) = .calls f ↔ ∃ m, '/' ∉ m ∧ p = d.name ++ '/' :: m ∧
      ((d.methods.find? fun e => e.1 = m).or (d.streams.find? fun e => e.1 = m)).map (·.2.1) = some f := by
  unfold route
  simp only
  cases h : cutLast p with
  | none =>
    have hn := cutLast_none.1 h
    simp only [reduceCtorEq, false_iff]
    rintro ⟨m, _, rfl, _⟩
    simp at hn
  | some q =>
    obtain ⟨a, m⟩ := q
    obtain ⟨rfl, hm⟩ := cutLast_some.1 h
    have key : ∀ m', '/' ∉ m' → a ++ '/' :: m = d.name ++ '/' :: m' → a = d.name ∧ m = m' := by
      intro m' hm' e
      have h2 := cutLast_some.2 ⟨e, hm'⟩
      rw [h] at h2
      cases h2; exact ⟨rfl, rfl⟩
    by_cases hs : a = d.name
    · simp only [if_pos hs]
      constructor
      · intro hc
        refine ⟨m, hm, by rw [hs], ?_⟩
        cases h1 : d.methods.find? fun e => e.1 = m with
        | some e => rw [h1] at hc; cases hc; rfl
        | none =>
          rw [h1] at hc
          cases h2 : d.streams.find? fun e => e.1 = m with
          | some e => rw [h2] at hc; cases hc; rfl
          | none => rw [h2] at hc; cases hc
      · rintro ⟨m', hm', e, hf⟩
        obtain ⟨_, rfl⟩ := key m' hm' e
        cases h1 : d.methods.find? fun e => e.1 = m with
        | some e => rw [h1] at hf; cases hf; rfl
        | none =>
          rw [h1] at hf
          cases h2 : d.streams.find? fun e => e.1 = m with
          | some e => rw [h2] at hf; cases hf; rfl
          | none => rw [h2] at hf; cases hf
    · simp only [if_neg hs, reduceCtorEq, false_iff]
      rintro ⟨m', hm', e, _⟩
      exact hs (key m' hm' e).1

theorem lookup_named (m : Str) (r : Rpc) :
    ((openMatch.methods.find? fun e => e.1 = m).or (openMatch.streams.find? fun e => e.1 = m)).map (·.2.1) = some r ↔ m = named r := by
  rw [← List.find?_append, find_map, openMatch_eq, named_eq]
  constructor
  · intro h
    have hk : ∀ e ∈ openMatchC, namedC e.2 = e.1 := by decide +kernel
    rw [Option.map_eq_some_iff] at h
    obtain ⟨e, he, rfl⟩ := h
    have h1 := List.find?_some he
    rw [hk e (List.mem_of_find?_eq_some he)]
    exact (of_decide_eq_true h1).symm
  · rintro rfl
    cases r <;> decide +kernel

/-- **C150.**  Whatever the path of a call: om-core runs a function exactly if the path is that of the published method of the same name,
`/open_match.v2.OpenMatchService/` and the name. -/
theorem C150_routed (p : Str) (r : Rpc) :
    route openMatch ('/' :: p) = .calls r ↔ p = "open_match.v2.OpenMatchService/".toList ++ named r := by
  have hn : openMatch.name ++ ['/'] = "open_match.v2.OpenMatchService/".toList := by
    unfold openMatch
    simp only [toListLit, List.cons_append, List.nil_append]
  rw [route_calls, ← hn]
  constructor
  · rintro ⟨m, _, e, h⟩
    rw [e, (lookup_named m r).1 h, List.append_assoc, List.cons_append, List.nil_append]
  · intro e
    refine ⟨named r, ?_, by rw [e, List.append_assoc, List.cons_append, List.nil_append], (lookup_named _ _).2 rfl⟩
    rw [named_eq]
    cases r <;> decide +kernel

/-- **C150.**  The generated clients call these paths. -/
theorem C150_clients (r : Rpc) : clientPath r = '/' :: ("open_match.v2.OpenMatchService/".toList ++ named r) := by
  cases r <;> delta clientPath named <;> dsimp only <;> simp only [toListLit, List.cons_append, List.nil_append]

/-- So each call of a client reaches the function of its name, and no other. -/
theorem C150_reaches (r r' : Rpc) : route openMatch (clientPath r) = .calls r' ↔ r' = r := by
  rw [C150_clients, C150_routed]
  constructor
  · intro h
    have := List.append_cancel_left h
    rw [named_eq, named_eq] at this
    have key : ∀ r r' : Rpc, namedC r = namedC r' → r' = r := by intro r r'; cases r <;> cases r' <;> decide +kernel
    exact key r r' this
  · rintro rfl; rfl

/-- **C150.**  Every other call is answered "unimplemented" and runs nothing. -/
theorem C150_refused (p : Str) (h : ∀ r, p ≠ "open_match.v2.OpenMatchService/".toList ++ named r) :
    route openMatch ('/' :: p) = .unimplemented := by
  cases hr : route openMatch ('/' :: p) with
  | calls r => exact absurd ((C150_routed p r).1 hr) (h r)
  | unimplemented => rfl

/-- **C150.**  The server of a matchmaking function runs `Run` exactly for the path that om-core calls. -/
theorem C150_run (p : Str) : route mmfService ('/' :: p) = .calls () ↔ '/' :: p = mmfPath := by
  have hn : '/' :: (mmfService.name ++ '/' :: cs! "Run") = mmfPath := by
    unfold mmfService mmfPath
    simp only [toListLit, List.cons_append, List.nil_append]
  have he : mmfService.methods ++ mmfService.streams = [(cs! "Run", (), "ChunkedMmfRunRequest".toList, "StreamedMmfResponse".toList)] := by
    unfold mmfService entry
    simp only [toListLit, List.nil_append]
  have hl : ∀ m, ((mmfService.methods.find? fun e => e.1 = m).or (mmfService.streams.find? fun e => e.1 = m)).map (·.2.1) = some () ↔
      m = cs! "Run" := by
    intro m
    rw [← List.find?_append, he, List.find?_cons]
    by_cases e : m = cs! "Run"
    · subst e; simp
    · simp [e, Ne.symm e]
  rw [route_calls, ← hn]
  constructor
  · rintro ⟨m, _, e, h⟩
    rw [e, (hl m).1 h]
  · intro e
    injection e with _ e
    exact ⟨cs! "Run", by decide +kernel, e, (hl _).2 rfl⟩

/-- Neither server serves the other's methods, and a path with a slash too many is another path. -/
example : route openMatch mmfPath = .unimplemented ∧ (∀ r, route mmfService (clientPath r) = .unimplemented) ∧
    route openMatch "/open_match.v2.OpenMatchService/CreateTicket/".toList = .unimplemented := by
  refine ⟨?_, fun r => ?_, ?_⟩
  · decide +kernel
  · cases r <;> decide +kernel
  · decide +kernel

end OM.Props
