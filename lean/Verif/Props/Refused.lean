import Verif.Props.Invoke
import Verif.Props.RelayBlind
/-!
# Property C145: whether a matchmaker learns that a pool of its profile was refused
-/
namespace OM.Props
open OM.Spec OM.Relay

/-- What C145 asks: if a pool of the profile is refused, no call with that profile ends with OK. -/
def C145_statement : Prop := ∀ (p : Profile) (fs : List Mmf), (∃ n pool, p.pools.load n = some pool ∧ BadTimes pool) →
  validate (some p) fs = none → ∀ (wait : Bool) (ls : List Label) (s : Relay.St), Relay.run wait fs (Relay.init fs) ls = some s →
    Relay.status s ≠ some none

/-- **C145 is false of the code**: the error of a refused pool is only logged (core/main.go:402-407); a call whose profile
has only a refused pool ends with OK. -/
theorem C145_refused_pool_reported_refuted : ¬ C145_statement := by
  intro h
  have h1 : (Relay.run false [⟨true, [], true⟩] (Relay.init [⟨true, [], true⟩]) [.recv 0 [], .tdDone 0, .mainClose, .mainReturn]).map
    Relay.status = some (some none) := by decide +kernel
  obtain ⟨s, hs, he⟩ := Option.map_eq_some_iff.1 h1
  refine h ⟨[], [("bad".toList, timedPool (some ⟨0, -1⟩) none 0)], []⟩ [⟨true, [], true⟩]
    ⟨"bad".toList, _, rfl, ⟨some ⟨0, -1⟩, none, 0⟩, rfl, Or.inl ⟨⟨0, -1⟩, rfl, by simp [Legal]⟩⟩ (by decide) false _ s hs he

/-- **C145 (what the functions see).** Partial: full C145 asks for an error.  Two profiles that differ in one pool, which in
one of them is refused and in the other admits no active ticket: every function gets the same tickets under
every name, and has a pool of a name in one exactly if it has it in the other.  So neither the matchmaker nor a function can
tell a pool that was refused from one without players. -/
theorem C145_refused_looks_empty_partial (p p' : Profile) (hwf : p.pools.WF) (hwf' : p'.pools.WF) (bad : Str) (b b' : Pool)
    (hb : p.pools.load bad = some b) (hbad : BadTimes b)
    (hb' : p'.pools.load bad = some b')
    (hsame : ∀ n, n ≠ bad → p.pools.load n = p'.pools.load n)
    (ts : List Ticket) (ha : ∀ t ∈ ts, t.attributes.isSome) (hnone : participants b' ts = [])
    (work work' : List (Ticket × List Str)) (hw : WorkFor p ts work) (hw' : WorkFor p' ts work') :
    ∃ sent sent', chunkedRequest p work = some sent ∧ chunkedRequest p' work' = some sent' ∧
      (sent.length < 2 ^ 31 → sent'.length < 2 ^ 31 → ∀ got got', List.Forall₂ Received sent got → List.Forall₂ Received sent' got' →
        ∃ q q', getChunkedRequest got = some (.profile (some q), []) ∧ getChunkedRequest got' = some (.profile (some q'), []) ∧
          q.pools.load bad = none ∧
          ∀ n, gotFor q n = gotFor q' n ∧ (q.pools.load n = none ↔ q'.pools.load n = none)) := by
  obtain ⟨sent, hs, h⟩ := C38_mmf_receives_exactly_the_matching_tickets p hwf ts ha work hw
  obtain ⟨sent', hs', h'⟩ := C38_mmf_receives_exactly_the_matching_tickets p' hwf' ts ha work' hw'
  refine ⟨sent, sent', hs, hs', fun hl hl' got got' hg hg' => ?_⟩
  obtain ⟨q, h1, h2, h3⟩ := h hl got [] hg
  obtain ⟨q', h1', h2', h3'⟩ := h' hl' got' [] hg'
  have e : q.pools.load bad = none := h3 bad fun pool hp => by rw [hb] at hp; cases hp; exact Or.inl hbad
  have e' : q'.pools.load bad = none := h3' bad fun pool hp => by rw [hb'] at hp; cases hp; exact Or.inr hnone
  refine ⟨q, q', by simpa using h1, by simpa using h1', e, fun n => ?_⟩
  by_cases hn : n = bad
  · subst hn
    simp [gotFor, e, e']
  · have hload := hsame n hn
    by_cases hx : ∃ pool, p.pools.load n = some pool ∧ ¬ BadTimes pool ∧ participants pool ts ≠ []
    · obtain ⟨pool, hp, hg1, hg2⟩ := hx
      obtain ⟨sp, r, a1, a2, a3⟩ := h2 n pool hp hg1 hg2
      obtain ⟨sp', r', a1', a2', a3'⟩ := h2' n pool (hload ▸ hp) hg1 hg2
      simp [gotFor, a1, a2, a3, a1', a2', a3']
    · have hz : ∀ pool, p.pools.load n = some pool → BadTimes pool ∨ participants pool ts = [] := by
        intro pool hp
        by_cases hb : BadTimes pool
        · exact Or.inl hb
        · by_cases ht : participants pool ts = []
          · exact Or.inr ht
          · exact absurd ⟨pool, hp, hb, ht⟩ hx
      have z := h3 n hz
      have z' := h3' n (by rw [← hload]; exact hz)
      simp [gotFor, z, z']

/-- A profile with a refused pool, and the one with a legal pool that nobody is in. -/
example : sampleProfile.pools.load "bad".toList = some (timedPool (some ⟨0, -1⟩) none 0) ∧
    BadTimes (timedPool (some ⟨0, -1⟩) none 0) ∧
    ¬ BadTimes (timedPool (some ⟨5, 0⟩) none 0) ∧
    participants { timedPool (some ⟨5, 0⟩) none 0 with tagPresentFilters := [⟨"nobody".toList⟩] } [sampleTicket, plainTicket] = [] := by
  refine ⟨by decide, ⟨⟨some ⟨0, -1⟩, none, 0⟩, rfl, Or.inl ⟨⟨0, -1⟩, rfl, by simp [Legal]⟩⟩, ?_, by decide⟩
  rintro ⟨f, hf, h⟩
  cases hf
  rcases h with ⟨t, ht, hl⟩ | ⟨t, ht, -⟩ <;> cases ht
  exact hl (by simp [Legal])

end OM.Props
