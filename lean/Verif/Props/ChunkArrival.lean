import Verif.Props.Limits
import Verif.Props.ChunkSize
/-! # Properties: which requests reach a function whole (C127) -/
namespace OM.Props
open OM.Limits OM.Spec

/-- **C127 (exactly).** If every chunk of the request is within 4 MiB, the function has exactly the tickets that
fit the pools of the profile.  If one is not, none of the bundled functions makes a match, and om-core gets an error
from them. -/
theorem C127_exactly (p : Profile) (hwf : p.pools.WF) (ts : List Ticket) (ha : ∀ t ∈ ts, t.attributes.isSome)
    (work : List (Ticket × List Str)) (hw : WorkFor p ts work) (sent : List ChunkedMmfRunRequest)
    (hs : chunkedRequest p work = some sent) (hl : sent.length < 2 ^ 31) :
    ((∀ r ∈ sent, Spec.chunkSize r ≤ 4194304) →
      (arriving Limits.chunkSize sent).2 = true ∧
      ∀ got, List.Forall₂ Received (arriving Limits.chunkSize sent).1 got →
        ∃ q, getChunkedRequest got = some (.profile (some q), []) ∧ q.name = p.name ∧
          (∀ n pool, p.pools.load n = some pool → ¬ BadTimes pool → poolTickets q n = participants pool ts) ∧
          (∀ n, (∀ pool, p.pools.load n = some pool → BadTimes pool) → poolTickets q n = [])) ∧
    ((¬ ∀ r ∈ sent, Spec.chunkSize r ≤ 4194304) →
      ∀ Run : List ChunkedMmfRunRequest → Mmf.RunRes → Prop, (Run = SoloRun ∨ Run = RoyaleRun ∨ Run = TeamRun) →
        ∀ f, Crosses Run sent f → f.results = [] ∧ f.eof = false) := by
  refine ⟨fun hall => ?_, fun hlong Run hRun f hf => ?_⟩
  · have harr : arriving Limits.chunkSize sent = (sent, true) := arriving_all hall
    rw [harr]
    refine ⟨rfl, fun got hg => ?_⟩
    obtain ⟨sent', h1, h2⟩ := C38_mmf_receives_exactly_the_matching_tickets p hwf ts ha work hw
    obtain rfl : sent' = sent := Option.some.inj (h1.symm.trans hs)
    obtain ⟨q, h3, h4, h5⟩ := h2 hl got [] hg
    have hname := (C39_name_and_extensions p hwf ts ha work hw _ hs hl got [] hg q [] h3).1
    rw [List.append_nil] at h3
    refine ⟨q, h3, hname, fun n pool hp hb => ?_, fun n hn => ?_⟩
    · by_cases he : participants pool ts = []
      · unfold poolTickets
        rw [h5 n (fun pool' hp' => Or.inr (by rw [hp] at hp'; cases hp'; exact he)), he]
      · obtain ⟨sp, r, a1, a2, a3⟩ := h4 n pool hp hb he
        unfold poolTickets
        simp only [a1, a2, a3]
    · unfold poolTickets
      rw [h5 n (fun pool hp => Or.inl (hn pool hp))]
  · obtain ⟨r, hr⟩ := not_forall.1 hlong
    obtain ⟨hr, hlt⟩ := Classical.not_imp.1 hr
    exact blinded_of_long_chunk hwf ha hw hs hl hr (Nat.lt_of_not_le hlt) hRun hf

/-- **C127, partial**: with at most 25,000 tickets in each chunk, that leave room for the profile, and pool names that
are not excessively many or long, every chunk arrives, and the function has exactly the tickets that fit, however
short they are.  The full statement (`C127_statement`) is for all accepted tickets. -/
theorem C127_few_partial (p : Profile) (hwf : p.pools.WF) (ts : List Ticket) (ha : ∀ t ∈ ts, t.attributes.isSome)
    (work : List (Ticket × List Str)) (hw : WorkFor p ts work) (sent : List ChunkedMmfRunRequest)
    (hs : chunkedRequest p work = some sent) (hl : sent.length < 2 ^ 31) (hempty : emptySize p < 4000000)
    (hfit : ∀ t ∈ ts, emptySize p + ticketSize t < 4000000)
    (hfew : ∀ r ∈ sent, placed r ≤ 25000) (hnames : ∀ r ∈ sent, poolRoom r ≤ 69000) :
    (arriving Limits.chunkSize sent).2 = true ∧
    ∀ got, List.Forall₂ Received (arriving Limits.chunkSize sent).1 got →
      ∃ q, getChunkedRequest got = some (.profile (some q), []) ∧ q.name = p.name ∧
        (∀ n pool, p.pools.load n = some pool → ¬ BadTimes pool → poolTickets q n = participants pool ts) ∧
        (∀ n, (∀ pool, p.pools.load n = some pool → BadTimes pool) → poolTickets q n = []) :=
  (C127_exactly p hwf ts ha work hw sent hs hl).1 fun r hr =>
    C41_few_partial p ts work sent hwf ha hw hs hl hempty hfit r hr (hfew r hr) (hnames r hr)

private def egPool : Pool := ⟨"any".toList, [⟨"x".toList⟩], [], [], none, none, []⟩
private def egP : Profile := ⟨"duel".toList, [("red".toList, egPool)], []⟩
private def egT (id : String) : Ticket := ⟨id.toList, none, some ⟨["x".toList], [], [], none⟩, []⟩

-- Tickets shorter than C127_reasonable_tickets_partial allows.
example : WorkFor egP [egT "1-0", egT "2-0"] [(egT "1-0", ["red".toList]), (egT "2-0", ["red".toList])] ∧
    ((chunkedRequest egP [(egT "1-0", ["red".toList]), (egT "2-0", ["red".toList])]).map
      (·.map fun r => (placed r, poolRoom r))) = some [(2, 43)] ∧ ticketSize (egT "1-0") < 64 ∧
    emptySize egP + ticketSize (egT "1-0") < 4000000 := by
  have hv : validPools egP.pools = ["red".toList] := by decide +kernel
  refine ⟨⟨rfl, fun w hw => ?_⟩, by decide +kernel⟩
  rw [hv]
  rcases List.mem_cons.1 hw with rfl | hw
  · exact .refl _
  · rcases List.mem_cons.1 hw with rfl | hw
    · exact .refl _
    · cases hw

end OM.Props
