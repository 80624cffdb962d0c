import Verif.Lemmas.Duplex
import Verif.Props.Limits
/-!
# Properties C135 and C136: the stream between om-core and a matchmaking function

C135: a function may read its request up to the end of the stream.  False: om-core does not
close its side.  The functions of the repository count chunks instead, and are served.

C136: a function may send matches while its request is still coming in.  False: om-core does
not read before it has sent everything, so both can end up waiting for the other.
-/
namespace OM.Props
open OM.Spec OM.Duplex

/-! ## C135 -/

/-- **C135, the full statement**: the invocation of a function that reads its request to the
end of the stream and then sends its matches works. -/
def C135_statement : Prop :=
  ∀ (R : Rooms) (result : List ChunkedMmfRunRequest → List Match) (chunks : List ChunkedMmfRunRequest),
    Works false R (reader toTheEnd result) chunks (result chunks)

/-- Such a function sends nothing and never returns, whatever the request and the schedule:
only the deadline ends the call, with an error. -/
theorem C135_waits_for_the_deadline (R : Rooms) (result : List ChunkedMmfRunRequest → List Match)
    (chunks : List ChunkedMmfRunRequest) (ls : List Label) (s : St (reader toTheEnd result))
    (h : run false R (init (reader toTheEnd result) chunks) ls = some s) :
    s.got = [] ∧ s.down = [] ∧ s.returned = false ∧ s.done = false := by
  obtain ⟨acc, -, h2, h3, h4, h5, -⟩ := toTheEnd_asks h
  exact ⟨h4, h3, h2, h5⟩

/-- **C135 is false of the code**, for every request and every function. -/
theorem C135_read_to_the_end_refuted : ¬ C135_statement := by
  intro h
  obtain ⟨ls, s, hr, hd⟩ := works_ends (h ⟨fun _ _ => true, fun _ _ => true⟩ (fun _ => []) [])
  rw [(C135_waits_for_the_deadline _ _ _ _ _ hr).2.2.2] at hd
  cases hd

/-- **C135, the part that holds**: a function that counts chunks with `GetChunkedRequest`
gets all of the request om-core makes of the snapshot, and om-core gets all its matches. -/
theorem C135_counting_partial (p : Profile) (hwf : p.pools.WF) (ts : List Ticket) (ha : ∀ t ∈ ts, t.attributes.isSome)
    (work : List (Ticket × List Str)) (hw : WorkFor p ts work) (sent : List ChunkedMmfRunRequest)
    (hs : chunkedRequest p work = some sent) (hl : sent.length < 2 ^ 31)
    (R : Rooms) (result : List ChunkedMmfRunRequest → List Match) :
    Works false R (reader countsChunks result) sent (result sent) := by
  obtain ⟨sent', h1, hne, h3, h4⟩ := C39_framing p hwf ts ha work hw
  obtain rfl : sent' = sent := Option.some.inj (h1.symm.trans hs)
  have hrefl : List.Forall₂ Received sent' sent' := by
    refine List.forall₂_same.2 fun x hx => ?_
    obtain ⟨-, q, hq, -, -⟩ := h3 x hx
    exact ⟨q, q, hq, hq, rfl, rfl, List.Perm.refl _, List.Perm.refl _⟩
  obtain ⟨h5, h6⟩ := h4 hl sent' hrefl
  refine reader_works ?_ (.inr ⟨hne, ?_⟩)
  · intro acc r hacc _ he
    by_contra hr
    have hlt : acc.length < sent'.length := by
      rw [hacc, List.length_append]
      have := List.length_pos_iff.2 hr
      omega
    have := h6 acc.length hlt
    have hacc' : sent'.take acc.length = acc := by
      conv => lhs; rw [hacc]
      exact List.take_left
    rw [hacc'] at this
    simp [countsChunks, this] at he
  · obtain ⟨q, hq⟩ := h5 []
    rw [List.append_nil] at hq
    simp [countsChunks, hq]

/-- With `CloseSend` after the last chunk, C135 would hold. -/
theorem C135_with_close_send (R : Rooms) (result : List ChunkedMmfRunRequest → List Match) (chunks : List ChunkedMmfRunRequest) :
    Works true R (reader toTheEnd result) chunks (result chunks) :=
  reader_works (by intro _ _ _ _ h; cases h) (.inl rfl)

/-- So soloduel's matches all arrive, whatever the flow control. -/
theorem C135_soloduel_partial (p : Profile) (hwf : p.pools.WF) (ts : List Ticket) (ha : ∀ t ∈ ts, t.attributes.isSome)
    (work : List (Ticket × List Str)) (hw : WorkFor p ts work) (sent : List ChunkedMmfRunRequest)
    (hs : chunkedRequest p work = some sent) (hl : sent.length < 2 ^ 31) (R : Rooms)
    (t : Str) (now : Nat → Timestamp) (ord : GoMap Pool → GoMap Pool) (hord : ∀ m, (ord m).Perm m) :
    ∃ r, SoloRun sent r ∧ r.err = false ∧ Works false R (reader countsChunks fun msgs =>
      ((Mmf.withRequest (fun req => Mmf.soloduel (fun _ => true) t now (ord (Mmf.pools req)) req) msgs).map (·.sent)).getD []) sent r.sent := by
  obtain ⟨sent', h1, -, h3, -⟩ := C39_framing p hwf ts ha work hw
  obtain rfl : sent' = sent := Option.some.inj (h1.symm.trans hs)
  have hrefl : List.Forall₂ Received sent' sent' := by
    refine List.forall₂_same.2 fun x hx => ?_
    obtain ⟨-, q, hq, -, -⟩ := h3 x hx
    exact ⟨q, q, hq, hq, rfl, rfl, List.Perm.refl _, List.Perm.refl _⟩
  obtain ⟨sent'', h1', h2⟩ := C38_mmf_receives_exactly_the_matching_tickets p hwf ts ha work hw
  obtain rfl : sent'' = sent' := Option.some.inj (h1'.symm.trans hs)
  obtain ⟨q, hq, -, -⟩ := h2 hl sent'' [] hrefl
  rw [List.append_nil] at hq
  obtain ⟨r, e1, e2, -⟩ := C50_pairs (fun _ => true) t now q (ord q.pools) (hord _)
  have hrun : Mmf.withRequest (fun req => Mmf.soloduel (fun _ => true) t now (ord (Mmf.pools req)) req) sent'' = some r := by
    simp only [Mmf.withRequest, hq]
    exact e1
  have herr : r.err = false := by
    rcases e2.2 with ⟨h1, -⟩ | ⟨-, -, h3⟩
    · exact h1
    · cases h3
  refine ⟨r, ⟨_, _, _, ord, hord, hrun⟩, herr, ?_⟩
  have := C135_counting_partial p hwf ts ha work hw sent'' hs hl R (fun msgs =>
    ((Mmf.withRequest (fun req => Mmf.soloduel (fun _ => true) t now (ord (Mmf.pools req)) req) msgs).map (·.sent)).getD [])
  rwa [hrun] at this

/-- A request of two chunks, one at a time: the counting function answers, the other one hangs. -/
def chunkOf2 : ChunkedMmfRunRequest := ⟨some ⟨"p".toList, [], []⟩, 2⟩
def aMatch : Match := ⟨"m".toList, [], []⟩
def tight : Rooms := ⟨fun q _ => q.isEmpty, fun q _ => q.isEmpty⟩

example : (run false tight (init (reader countsChunks fun _ => [aMatch]) [chunkOf2, chunkOf2])
    [.send, .fn, .send, .fn, .fn, .recv, .fn, .recv]).map (fun s => (s.got, s.done)) = some ([aMatch], true) := by decide
example : (run false tight (init (reader toTheEnd fun _ => [aMatch]) [chunkOf2, chunkOf2])
    [.send, .fn, .send, .fn]).map (fun s => (s.got, s.done, [Label.send, .close, .recv, .fn].all fun l => (step false tight s l).isNone)) =
      some ([], false, true) := by decide

/-! ## C136 -/

/-- **C136, the full statement**: a function that receives all chunks may send matches in
between, as it likes (with some flow control that is bounded, as gRPC's is). -/
def C136_statement : Prop :=
  ∃ n R, Bounded n R ∧ ∀ (ops : List Op) (chunks : List ChunkedMmfRunRequest), recvsOf ops = chunks.length →
    Works false R (script ops) chunks (sendsOf ops)

/-- However much the connection holds, there is a function that receives every chunk and
sends its matches after the first one, whose invocation always hangs, no match having been
received. -/
theorem C136_some_function_hangs (n : Nat) (R : Rooms) (hB : Bounded n R) (m : Match) (chunks : List ChunkedMmfRunRequest)
    (hlen : chunks.length = n + 3) :
    ∃ ops, recvsOf ops = chunks.length ∧ sendsOf ops = List.replicate (n + 1) m ∧
      (∀ ls s, run false R (init (script ops) chunks) ls = some s → s.got = [] ∧ s.done = false) ∧
      ∃ ls s, run false R (init (script ops) chunks) ls = some s ∧ ∀ l, step false R s l = none := by
  have hrec : recvsOf (.recv :: (List.replicate (n + 1) (.send m) ++ List.replicate (n + 2) .recv)) = chunks.length := by
    rw [show ∀ l, Op.recv :: l = [Op.recv] ++ l from fun _ => rfl, recvsOf_append, recvsOf_append, hlen]
    simp [recvsOf]; omega
  refine ⟨.recv :: (List.replicate (n + 1) (.send m) ++ List.replicate (n + 2) .recv), hrec, ?_, ?_, ?_⟩
  · rw [show ∀ l, Op.recv :: l = [Op.recv] ++ l from fun _ => rfl, sendsOf_append, sendsOf_append]
    simp [sendsOf]
  · intro ls s h
    have := script_stuck hB m hlen rfl h
    exact ⟨this.1, this.2.2.1⟩
  · by_contra hno
    have hends : Works false R (script (.recv :: (List.replicate (n + 1) (.send m) ++ List.replicate (n + 2) .recv))) chunks [] := by
      refine ⟨script_bound hrec, fun ls s h => ⟨fun _ => ?_, ?_, fun _ => (script_stuck hB m hlen rfl h).1⟩⟩
      · by_contra hcon
        refine hno ⟨ls, s, h, fun l => ?_⟩
        cases hs : step false R s l with
        | none => rfl
        | some s' => exact absurd ⟨l, s', hs⟩ hcon
      · rw [(script_stuck hB m hlen rfl h).1]; exact List.nil_prefix
    obtain ⟨ls, s, hr, hd⟩ := works_ends hends
    rw [(script_stuck hB m hlen rfl hr).2.2.1] at hd
    cases hd

/-- **C136 is false of the code.** -/
theorem C136_answer_early_refuted : ¬ C136_statement := by
  rintro ⟨n, R, hB, h⟩
  obtain ⟨ops, h1, -, h3, -⟩ := C136_some_function_hangs n R hB aMatch (List.replicate (n + 3) chunkOf2) (by simp)
  obtain ⟨ls, s, hr, hd⟩ := works_ends (h ops _ h1)
  rw [(h3 ls s hr).2] at hd
  cases hd

/-- **C136, the part that holds**: a function that receives all chunks is served if the
connection has room for the matches it sends before the last chunk (in particular if it sends
none before that). -/
theorem C136_enough_room_partial (R : Rooms) (ops : List Op) (chunks : List ChunkedMmfRunRequest) (hn : recvsOf ops = chunks.length)
    (hroom : ∀ pre m post, ops = pre ++ .send m :: post → Op.recv ∈ post → R.down (sendsOf pre) m = true) :
    Works false R (script ops) chunks (sendsOf ops) :=
  script_works hn hroom

/-- Two matches early where there is room for two; a third would not fit. -/
example : Works false ⟨fun q _ => q.length < 2, fun q _ => q.length < 2⟩
    (script [.recv, .send aMatch, .send aMatch, .recv, .send aMatch]) [chunkOf2, chunkOf2] [aMatch, aMatch, aMatch] := by
  refine C136_enough_room_partial _ _ _ rfl ?_
  intro pre m post h hr
  match pre, h with
  | [], h => cases h
  | [_], h => cases h; rfl
  | [_, _], h => cases h; rfl
  | [_, _, _], h => cases h
  | [_, _, _, _], h => cases h; cases hr
  | _ :: _ :: _ :: _ :: _ :: _, h =>
    have := congrArg List.length h
    simp only [List.length_cons, List.length_append, List.length_nil] at this
    omega

example : Bounded 2 ⟨fun q _ => q.length < 2, fun q _ => q.length < 2⟩ := by
  constructor <;> intro q _ h <;> simpa using h

end OM.Props
