import Verif.Lemmas.Invoke
import Verif.Lemmas.Size
import Verif.Props.Filter
/-! # Properties C05, C38–C42: filling pools and sending them to MMFs -/
namespace OM.Props
open OM.Spec

/-! ## Sample data -/

/-- Another active ticket, without the tag `vip`. -/
def plainTicket : Ticket :=
  { sampleTicket with id := "1700000000-1".toList, attributes := some { sampleAttrs with tags := [] } }

def plainPool : Pool :=
  { name := [], tagPresentFilters := [], stringEqualsFilters := [], doubleRangeFilters := []
    creationTimeRangeFilter := none, participants := none, extensions := [] }

/-- Two pools and one that is refused. -/
def sampleProfile : Profile :=
  { name := "prof".toList
    pools := [("vips".toList, samplePool), ("all".toList, plainPool), ("bad".toList, timedPool (some ⟨0, -1⟩) none 0)]
    extensions := [] }

def sampleWork : List (Ticket × List Str) :=
  [(sampleTicket, ["all".toList, "vips".toList]), (plainTicket, ["vips".toList, "all".toList])]

theorem sampleWork_ok : WorkFor sampleProfile [sampleTicket, plainTicket] sampleWork := by
  refine ⟨rfl, ?_⟩
  have : validPools sampleProfile.pools = ["vips".toList, "all".toList] := by decide
  rw [this]
  intro w hw
  simp only [sampleWork, List.mem_cons, List.not_mem_nil, or_false] at hw
  rcases hw with rfl | rfl
  · exact List.Perm.swap ..
  · exact .refl _

theorem sampleProfile_wf : sampleProfile.pools.WF := by unfold GoMap.WF; decide

theorem sample_attributes : ∀ t ∈ [sampleTicket, plainTicket], t.attributes.isSome := by
  intro t ht
  simp only [List.mem_cons, List.not_mem_nil, or_false] at ht
  rcases ht with rfl | rfl <;> rfl

/-! ## C38 -/

theorem valid_iff (p : Pool) : Filter.validatePoolFilters (some p) = none ↔ ¬ BadTimes p := by
  rw [← Option.not_isSome_iff_eq_none, C05_validation_exact]; rfl

private theorem under_adds {p : Profile} (hwf : p.pools.WF) {ts : List Ticket} {work : List (Ticket × List Str)}
    (hw : WorkFor p ts work) :
    (∀ n pool, p.pools.load n = some pool → ¬ BadTimes pool →
      under n (additions p.pools work) = participants pool ts) ∧
    (∀ n, (∀ pool, p.pools.load n = some pool → BadTimes pool) → under n (additions p.pools work) = []) := by
  constructor
  · intro n pool hl hb
    rw [under_additions hwf hw, if_pos ((mem_validPools hwf n).2 ⟨pool, hl, (valid_iff pool).2 hb⟩), hl]
    rfl
  · intro n h
    rw [under_additions hwf hw, if_neg]
    intro hm
    obtain ⟨pool, hl, hv⟩ := (mem_validPools hwf n).1 hm
    exact (valid_iff pool).1 hv (h pool hl)

/-- What an MMF reassembles: per pool name the tickets under that name. -/
private theorem reassembled {p : Profile} {segs : List (List (Str × Ticket))} (hne : segs ≠ [])
    (hlen : segs.length < 2 ^ 31) {got rest : List ChunkedMmfRunRequest}
    (hg : List.Forall₂ Received ((segs.map toChunk).map (chunkRequest p segs.length)) got) :
    ∃ q, getChunkedRequest (got ++ rest) = some (.profile (some q), rest) ∧ q.name = p.name ∧
      q.extensions.Perm p.extensions ∧
      ∀ n, q.pools.load n = (nz (under n segs.flatten)).map (sentPool n) := by
  obtain ⟨ms, rfl, hms⟩ := received_eq hg
  have hlm : ms.length = segs.length := by simpa using hms.length_eq.symm
  have hmne : ms ≠ [] := by intro h; subst h; simp at hlm; exact hne (List.length_eq_zero_iff.1 hlm.symm)
  have hok := getChunks_ok p.name segs.length hlen rest ms 1 [] hmne (by omega)
  refine ⟨_, hok, rfl, ?_, ?_⟩
  · have : ∀ {cs : List Chunk} {ms : List (Chunk × GoMap AnyPb)},
        List.Forall₂ (fun c m => m.1.Perm c ∧ m.2.Perm p.extensions) cs ms → ∀ m ∈ ms, m.2.Perm p.extensions := by
      intro cs ms h
      induction h with
      | nil => simp
      | cons h1 _ ih =>
        intro m hm
        rcases List.mem_cons.1 hm with rfl | hm
        · exact h1.2
        · exact ih m hm
    exact this hms _ (List.getLast_mem _)
  · intro n
    rw [asPools_load]
    have hh : List.Forall₂ Holds segs (ms.map (·.1)) := by
      rw [List.forall₂_map_left_iff] at hms
      rw [List.forall₂_map_right_iff]
      exact hms.imp fun s m h => holds_perm (holds_toChunk s) h.1
    rw [merges_load hh [] [] (fun n => by simp [under, nz])]
    rfl

/-- **C38.** Whatever the iteration orders, the loops do not panic, and the profile an
MMF reassembles has, for every pool with legal times that admits some ticket of the
snapshot, exactly the admitted tickets in snapshot order — and no other pool. -/
theorem C38_mmf_receives_exactly_the_matching_tickets (p : Profile) (hwf : p.pools.WF)
    (ts : List Ticket) (ha : ∀ t ∈ ts, t.attributes.isSome)
    (work : List (Ticket × List Str)) (hw : WorkFor p ts work) :
    ∃ sent, chunkedRequest p work = some sent ∧
      (sent.length < 2 ^ 31 → ∀ got rest, List.Forall₂ Received sent got →
        ∃ q, getChunkedRequest (got ++ rest) = some (.profile (some q), rest) ∧
          (∀ n pool, p.pools.load n = some pool → ¬ BadTimes pool → participants pool ts ≠ [] →
            ∃ sp r, q.pools.load n = some sp ∧ sp.participants = some r ∧ r.tickets = participants pool ts) ∧
          (∀ n, (∀ pool, p.pools.load n = some pool → BadTimes pool ∨ participants pool ts = []) →
            q.pools.load n = none)) := by
  obtain ⟨segs, hne, hfl, -, -, hreq⟩ := chunkedRequest_eq hwf ha hw
  refine ⟨_, hreq, fun hlen got rest hg => ?_⟩
  obtain ⟨q, h1, -, -, h2⟩ := reassembled (rest := rest) hne (by simpa using hlen) hg
  obtain ⟨u1, u2⟩ := under_adds hwf hw
  refine ⟨q, h1, ?_, ?_⟩
  · intro n pool hl hb hp
    rw [h2, hfl, u1 n pool hl hb, nz, if_neg hp]
    exact ⟨_, _, rfl, rfl, rfl⟩
  · intro n h
    rw [h2, hfl]
    cases hl : p.pools.load n with
    | none => rw [u2 n (by simp [hl])]; rfl
    | some pool =>
      rcases h pool hl with hb | hb
      · rw [u2 n (by intro q hq; rw [hl] at hq; cases hq; exact hb)]; rfl
      · by_cases hbad : BadTimes pool
        · rw [u2 n (by intro q hq; rw [hl] at hq; cases hq; exact hbad)]; rfl
        · rw [u1 n pool hl hbad, hb]; rfl

open Classical in
/-- C38 in terms of the filters' meaning: a pool without a creation-time filter admits
exactly the tickets that satisfy all its filters (C02 describes creation-time filters). -/
theorem C38_participants_meet_the_filters (pool : Pool) (hno : pool.creationTimeRangeFilter = none)
    (ts : List Ticket) (ha : ∀ t ∈ ts, ∃ a, t.attributes = some a ∧ WFAttrs a) :
    ¬ BadTimes pool ∧
    participants pool ts = ts.filter fun t => decide (∃ a, t.attributes = some a ∧ Meets pool a) := by
  refine ⟨by rintro ⟨f, hf, -⟩; exact absurd hf (by simp [hno]), ?_⟩
  unfold participants
  apply List.filter_congr
  intro t ht
  obtain ⟨a, hta, hwa⟩ := ha t ht
  have := (C01_membership_is_conjunction pool t a hta hwa hno).1
  simp [this, hta]

/-- C38, "each once": a snapshot without repeated ids yields pools without repeated ids. -/
theorem C38_each_once (pool : Pool) (ts : List Ticket) (h : (ts.map (·.id)).Nodup) :
    ((participants pool ts).map (·.id)).Nodup :=
  h.sublist ((List.filter_sublist).map _)

example : sampleProfile.pools.WF ∧ (∀ t ∈ [sampleTicket, plainTicket], t.attributes.isSome) ∧
    WorkFor sampleProfile [sampleTicket, plainTicket] sampleWork ∧
    participants samplePool [sampleTicket, plainTicket] = [sampleTicket] ∧
    participants plainPool [sampleTicket, plainTicket] = [sampleTicket, plainTicket] ∧
    BadTimes (timedPool (some ⟨0, -1⟩) none 0) := by
  refine ⟨sampleProfile_wf, sample_attributes, sampleWork_ok, by decide,
    by decide, ⟨some ⟨0, -1⟩, none, 0⟩, rfl, Or.inl ⟨⟨0, -1⟩, rfl, by simp [Legal]⟩⟩

/-! ## C05 -/

/-- The tickets the MMF has for a pool name. -/
def gotFor (q : Profile) (n : Str) : List Ticket :=
  (((q.pools.load n).bind (·.participants)).map (·.tickets)).getD []

/-- **C05 (isolation).** A refused pool only loses its own tickets: every name has the
same tickets as if the refused pool had not been in the profile. -/
theorem C05_refused_pool_does_not_disturb (p : Profile) (hwf : p.pools.WF) (bad : Str)
    (hbad : ∀ pool, p.pools.load bad = some pool → (Filter.validatePoolFilters (some pool)).isSome)
    (ts : List Ticket) (ha : ∀ t ∈ ts, t.attributes.isSome)
    (work work' : List (Ticket × List Str)) (hw : WorkFor p ts work)
    (hw' : WorkFor { p with pools := p.pools.delete bad } ts work')
    (sent sent' : List ChunkedMmfRunRequest) (hs : chunkedRequest p work = some sent)
    (hs' : chunkedRequest { p with pools := p.pools.delete bad } work' = some sent')
    (hlen : sent.length < 2 ^ 31) (hlen' : sent'.length < 2 ^ 31)
    (got got' : List ChunkedMmfRunRequest) (hg : List.Forall₂ Received sent got)
    (hg' : List.Forall₂ Received sent' got') :
    ∃ q q', getChunkedRequest got = some (.profile (some q), []) ∧
      getChunkedRequest got' = some (.profile (some q'), []) ∧
      gotFor q bad = [] ∧ ∀ n, gotFor q n = gotFor q' n := by
  have hwf' : (p.pools.delete bad).WF := GoMap.WF_delete hwf bad
  obtain ⟨segs, hne, hfl, -, -, hreq⟩ := chunkedRequest_eq hwf ha hw
  obtain ⟨segs', hne', hfl', -, -, hreq'⟩ := chunkedRequest_eq (p := { p with pools := p.pools.delete bad }) hwf' ha hw'
  rw [hreq] at hs; rw [hreq'] at hs'
  cases hs; cases hs'
  obtain ⟨q, h1, -, -, h2⟩ := reassembled (rest := []) hne (by simpa using hlen) hg
  obtain ⟨q', h1', -, -, h2'⟩ := reassembled (rest := []) hne' (by simpa using hlen') hg'
  obtain ⟨u1, u2⟩ := under_adds hwf hw
  obtain ⟨u1', u2'⟩ := under_adds (p := { p with pools := p.pools.delete bad }) hwf' hw'
  have key : ∀ (q : Profile) (n : Str) (l : List Ticket), q.pools.load n = (nz l).map (sentPool n) → gotFor q n = l := by
    intro q n l h
    unfold gotFor; rw [h]
    unfold nz; split
    · rename_i h; simp [h]
    · rfl
  have hb0 : under bad (additions p.pools work) = [] := by
    refine u2 bad fun pool hl => ?_
    have := hbad pool hl
    rw [C05_validation_exact] at this
    exact this
  refine ⟨q, q', by simpa using h1, by simpa using h1', ?_, fun n => ?_⟩
  · rw [key q bad _ (h2 bad), hfl, hb0]
  · rw [key q n _ (h2 n), key q' n _ (h2' n), hfl, hfl']
    by_cases hn : n = bad
    · subst hn
      rw [hb0, u2' n (by intro pool hl; simp at hl)]
    · have hload : (p.pools.delete bad).load n = p.pools.load n := GoMap.load_delete_ne _ hn
      cases hl : p.pools.load n with
      | none => rw [u2 n (by simp [hl]), u2' n (by simp [hload, hl])]
      | some pool =>
        by_cases hb : BadTimes pool
        · rw [u2 n (by intro q hq; rw [hl] at hq; cases hq; exact hb),
            u2' n (by intro q hq; simp only at hq; rw [hload, hl] at hq; cases hq; exact hb)]
        · rw [u1 n pool hl hb, u1' n pool (by simpa [hload] using hl) hb]

example : (Filter.validatePoolFilters (sampleProfile.pools.load "bad".toList)).isSome ∧
    WorkFor { sampleProfile with pools := sampleProfile.pools.delete "bad".toList } [sampleTicket, plainTicket] sampleWork := by
  refine ⟨by decide, rfl, ?_⟩
  have : validPools (sampleProfile.pools.delete "bad".toList) = ["vips".toList, "all".toList] := by decide
  simp only
  rw [this]
  have := sampleWork_ok.2
  rwa [show validPools sampleProfile.pools = ["vips".toList, "all".toList] by decide] at this

/-! ## C39 -/

/-- **C39.** At least one chunk; each carries the number of chunks, the profile's name
and its extensions; reading consumes exactly those chunks; and if the stream ends
after fewer, reading fails without a profile. -/
theorem C39_framing (p : Profile) (hwf : p.pools.WF) (ts : List Ticket) (ha : ∀ t ∈ ts, t.attributes.isSome)
    (work : List (Ticket × List Str)) (hw : WorkFor p ts work) :
    ∃ sent, chunkedRequest p work = some sent ∧ sent ≠ [] ∧
      (∀ r ∈ sent, r.numChunks = sent.length ∧ ∃ q, r.profile = some q ∧ q.name = p.name ∧ q.extensions = p.extensions) ∧
      (sent.length < 2 ^ 31 → ∀ got, List.Forall₂ Received sent got →
        (∀ rest, ∃ q, getChunkedRequest (got ++ rest) = some (.profile (some q), rest)) ∧
        ∀ k, k < got.length → getChunkedRequest (got.take k) = some (.err, [])) := by
  obtain ⟨segs, hne, hfl, -, -, hreq⟩ := chunkedRequest_eq hwf ha hw
  refine ⟨_, hreq, by simpa using hne, ?_, fun hlen got hg => ⟨fun rest => ?_, fun k hk => ?_⟩⟩
  · intro r hr
    obtain ⟨c, hc, rfl⟩ := List.mem_map.1 hr
    exact ⟨by simp [chunkRequest], _, rfl, rfl, rfl⟩
  · obtain ⟨q, h, -⟩ := reassembled (rest := rest) hne (by simpa using hlen) hg
    exact ⟨q, h⟩
  · obtain ⟨ms, rfl, hms⟩ := received_eq hg
    have hlm : ms.length = segs.length := by simpa using hms.length_eq.symm
    rw [← List.map_take]
    apply getChunks_short p.name segs.length (by simpa using hlen) (ms.take k) 1 []
    simp at hk ⊢; omega

/-- C39, the profile: what is reassembled has the name and the extensions of the matchmaker's profile. -/
theorem C39_name_and_extensions (p : Profile) (hwf : p.pools.WF) (ts : List Ticket) (ha : ∀ t ∈ ts, t.attributes.isSome)
    (work : List (Ticket × List Str)) (hw : WorkFor p ts work) (sent : List ChunkedMmfRunRequest)
    (hs : chunkedRequest p work = some sent) (hl : sent.length < 2 ^ 31) (got rest : List ChunkedMmfRunRequest)
    (hg : List.Forall₂ Received sent got) (q : Profile) (rest' : List ChunkedMmfRunRequest)
    (hq : getChunkedRequest (got ++ rest) = some (.profile (some q), rest')) :
    q.name = p.name ∧ q.extensions.Perm p.extensions := by
  obtain ⟨segs, hne, hfl, -, -, hreq⟩ := chunkedRequest_eq hwf ha hw
  rw [hreq] at hs; cases hs
  obtain ⟨q', h1, h2, h3, -⟩ := reassembled (rest := rest) hne (by simpa using hl) hg
  rw [h1] at hq; cases hq
  exact ⟨h2, h3⟩

example : ∃ sent, chunkedRequest sampleProfile sampleWork = some sent ∧ sent.length = 1 := by
  refine ⟨_, rfl, by decide +kernel⟩

/-! ## C40 -/

/-- **C40.** The request is a sequence of ticket groups, one per chunk: each group with
the empty request is below 4,000,000 bytes or has at most one ticket, and each chunk
after the first starts with a ticket that did not fit into the one before. -/
theorem C40_budget (p : Profile) (hwf : p.pools.WF) (ts : List Ticket) (ha : ∀ t ∈ ts, t.attributes.isSome)
    (work : List (Ticket × List Str)) (hw : WorkFor p ts work) :
    ∃ sent, chunkedRequest p work = some sent ∧
      ∃ segs, List.Forall₂ Carries sent segs ∧
        (∀ s ∈ segs, SegOk ticketSize (emptySize p) s) ∧
        segs.IsChain (NeededSplit ticketSize (emptySize p)) := by
  obtain ⟨segs, hne, hfl, hok, hch, hreq⟩ := chunkedRequest_eq hwf ha hw
  refine ⟨_, hreq, segs, ?_, hok, hch⟩
  rw [List.map_map, List.forall₂_map_left_iff, List.forall₂_same]
  intro s _ n
  have : (asPools (toChunk s)).load n = (nz (under n s)).map (sentPool n) := by rw [asPools_load, toChunk_load]
  unfold ticketsFor
  simp only [Function.comp_apply, chunkRequest, Option.bind_some]
  unfold asPools at this
  rw [this]
  unfold nz; split
  · rename_i h; simp [h]
  · rfl

/-- The cut happens: tickets of 2.5, 1 and 1 million bytes, and one that never fits. -/
example : (fillPools (fun t => if t.id = "a".toList then 2500000 else if t.id = "b".toList then 5000000 else 1000000) 10
      [("p".toList, plainPool)]
      [({ sampleTicket with id := "a".toList }, ["p".toList]), (sampleTicket, ["p".toList]),
       (plainTicket, ["p".toList]), ({ sampleTicket with id := "b".toList }, ["p".toList])]).map
        (fun st => st.chunks.map fun c => c.map fun e => e.2.map (·.id))
    = some [[["a".toList, sampleTicket.id]], [[plainTicket.id]], [["b".toList]]] := by decide

/-! ## C41 -/

/-- The full statement of C41. -/
def C41_statement : Prop :=
  ∀ (p : Profile) (ts : List Ticket) (work : List (Ticket × List Str)) (sent : List ChunkedMmfRunRequest),
    p.pools.WF → (ts.map (·.id)).Nodup → (∀ t ∈ ts, t.attributes.isSome) → WorkFor p ts work →
    chunkedRequest p work = some sent → sent.length < 2 ^ 31 → emptySize p < 4000000 →
    (∀ t ∈ ts, emptySize p + ticketSize t < 4000000) →
    ∀ r ∈ sent, chunkSize r ≤ 4194304

/-- An ordinary small ticket: a Redis id, an expiration and a creation time. -/
def smallTicket (i : Nat) : Ticket :=
  { id := fmtNat (1700000000000 + i) ++ "-0".toList, expirationTime := some ⟨1700000600, 0⟩
    attributes := some ⟨[], [], [], some ⟨1700000000, 0⟩⟩, extensions := [] }

def manyTickets : List Ticket := (List.range 114000).map smallTicket

def bigProfile : Profile := ⟨"b".toList, [("p".toList, plainPool)], []⟩

def manyWork : List (Ticket × List Str) := manyTickets.map (·, ["p".toList])

theorem smallTicket_size {i : Nat} (h : i < 114000) : Wire.sizeTicket (smallTicket i) = 35 := by
  have hlen : (fmtNat (1700000000000 + i)).length = 13 := by
    apply le_antisymm
    · exact (Nat.length_toDigits_le_iff (by decide) (by decide)).2 (by omega)
    · by_contra hc
      have := (Nat.length_toDigits_le_iff (b := 10) (k := 12) (by decide) (by decide)).1 (show (fmtNat (1700000000000 + i)).length ≤ 12 by omega)
      omega
  have hid : (smallTicket i).id.length = 15 := by simp [smallTicket, hlen]
  have hne : (smallTicket i).id ≠ [] := by intro h; rw [h] at hid; cases hid
  unfold Wire.sizeTicket Wire.ticketF
  simp only [Wire.ser_length_append]
  have h1 : Wire.strField 1 (smallTicket i).id = [(1, .len (smallTicket i).id)] := by simp [Wire.strField, hne]
  have h2 : (Wire.ser (Wire.msgField 2 (Option.map Wire.timestampF (smallTicket i).expirationTime))).length = 8 := by
    simp only [smallTicket]; decide
  have h3 : (Wire.ser (Wire.msgField 3 (Option.map Wire.dataF (smallTicket i).attributes))).length = 10 := by
    simp only [smallTicket]; decide
  have h4 : (Wire.ser (Wire.extF 4 (smallTicket i).extensions)).length = 0 := rfl
  rw [h1, Wire.ser_len1 1 _ (by omega), hid, h2, h3, h4, Wire.vl1 (by omega)]

theorem many_additions : additions bigProfile.pools manyWork = manyTickets.map ("p".toList, ·) := by
  have key : ∀ l : List Ticket, (∀ t ∈ l, Filter.In (bigProfile.pools.load "p".toList) (some t) = some true) →
      additions bigProfile.pools (l.map (·, ["p".toList])) = l.map ("p".toList, ·) := by
    intro l hl
    induction l with
    | nil => rfl
    | cons t l ih =>
      have h1 := hl t (by simp)
      have h2 := ih (fun x hx => hl x (by simp [hx]))
      unfold additions at h2 ⊢
      rw [List.map_cons, List.flatMap_cons, h2, List.filter_cons_of_pos (by simpa using h1)]
      rfl
  apply key
  intro t ht
  obtain ⟨i, -, rfl⟩ := List.mem_map.1 ht
  rfl

/-- **C41 is false of the code**: 114,000 small tickets go into one chunk, because
neither the per-ticket framing nor the pool entries are counted, and that chunk is
longer than 4 MiB. -/
theorem C41_fits_grpc_limit_refuted : ¬ C41_statement := by
  intro h
  have hwf : bigProfile.pools.WF := by simp [GoMap.WF, GoMap.keys, bigProfile]
  have hsz : ∀ t ∈ manyTickets, Wire.sizeTicket t = 35 := by
    intro t ht
    obtain ⟨i, hi, rfl⟩ := List.mem_map.1 ht
    exact smallTicket_size (List.mem_range.1 hi)
  have hattr : ∀ t ∈ manyTickets, t.attributes.isSome := by
    intro t ht
    obtain ⟨i, hi, rfl⟩ := List.mem_map.1 ht
    rfl
  have hwork : WorkFor bigProfile manyTickets manyWork := by
    refine ⟨by simp [manyWork, Function.comp_def], ?_⟩
    intro w hw
    obtain ⟨t, -, rfl⟩ := List.mem_map.1 hw
    exact List.Perm.of_eq (show ["p".toList] = validPools bigProfile.pools by decide)
  have hempty : emptyChunkSize bigProfile ≤ 100 := by decide
  have hsame : emptySize bigProfile = emptyChunkSize bigProfile := rfl
  have hnd : (manyTickets.map (·.id)).Nodup := by
    unfold manyTickets
    rw [List.map_map]
    refine List.pairwise_map.2 (List.Pairwise.imp ?_ List.nodup_range)
    intro a b hab hid
    apply hab
    have := fmtNat_injective (List.append_cancel_right (show fmtNat (1700000000000 + a) ++ "-0".toList = fmtNat (1700000000000 + b) ++ "-0".toList from hid))
    omega
  obtain ⟨segs, hne, hfl, hok, hch, hreq⟩ := chunkedRequest_eq hwf hattr hwork
  have hlen : segs.flatten.length = 114000 := by rw [hfl, many_additions]; simp [manyTickets]
  have hall : ∀ s ∈ segs, ∀ e ∈ s, Wire.sizeTicket e.2 = 35 := by
    intro s hs e he
    have : e ∈ segs.flatten := List.mem_flatten.2 ⟨s, hs, he⟩
    rw [hfl, many_additions] at this
    obtain ⟨t, ht, rfl⟩ := List.mem_map.1 this
    exact hsz t ht
  have htot : ∀ l : List (Str × Ticket), (∀ e ∈ l, Wire.sizeTicket e.2 = 35) →
      total Wire.sizeTicket l = 35 * l.length ∧ total Wire.slot l = 37 * l.length := by
    intro l hl
    induction l with
    | nil => simp [total]
    | cons e l ih =>
      have h1 := ih (fun x hx => hl x (by simp [hx]))
      have h2 := hl e (by simp)
      have h3 : Wire.slot e.2 = 37 := by unfold Wire.slot; rw [h2, Wire.vl1 (by omega)]
      simp only [total, List.map_cons, List.sum_cons, List.length_cons] at h1 ⊢
      omega
  -- a second chunk would need more tickets than there are
  match segs, hne, hfl, hch, hlen, hall, hreq with
  | [], hne, _, _, _, _, _ => exact hne rfl
  | a :: b :: more, _, _, hch, hlen, hall, _ =>
    obtain ⟨e, rest, rfl, hbig⟩ := (List.isChain_cons_cons.1 hch).1
    have h1 := (htot a (hall a (by simp))).1
    have h2 := hall (e :: rest) (by simp) e (by simp)
    simp at hlen
    rw [h1, h2] at hbig
    omega
  | [s], _, _, _, hlen, hall, hreq =>
    have hr := h bigProfile manyTickets manyWork _ hwf hnd hattr hwork hreq (by simp) (by omega)
      (by intro t ht; rw [show ticketSize t = 35 from hsz t ht]; omega)
      (chunkRequest bigProfile 1 (toChunk s)) (by simp)
    have hge : Wire.chunkSlots (toChunk s) ≤ chunkSize (chunkRequest bigProfile 1 (toChunk s)) :=
      Wire.sizeChunk_ge bigProfile 1 (toChunk s)
    have := (htot s (hall s (by simp))).2
    rw [Wire.chunkSlots_toChunk, this] at hge
    simp at hlen
    omega

private theorem nameCost_le {c ks : List Str} (hnd : c.Nodup) (hsub : ∀ k ∈ c, k ∈ ks) :
    Wire.nameCost c ≤ Wire.nameCost ks := by
  induction c generalizing ks with
  | nil => simp [Wire.nameCost]
  | cons k c ih =>
    have hk := hsub k (by simp)
    have hnd' := List.nodup_cons.1 hnd
    have := ih (ks := ks.erase k) hnd'.2 (by
      intro x hx
      have hne : x ≠ k := by rintro rfl; exact hnd'.1 hx
      exact (List.mem_erase_of_ne hne).2 (hsub x (by simp [hx])))
    have hp := (List.perm_cons_erase hk).map (fun k : Str => 37 + 2 * k.length)
    unfold Wire.nameCost at this ⊢
    rw [hp.sum_nat, List.map_cons, List.map_cons, List.sum_cons, List.sum_cons]
    omega

/-- **C41, partial**: with tickets of at least 64 bytes and pool names that are not
excessively many or long, every chunk is within 4 MiB.  The full statement
(`C41_statement`) has neither restriction. -/
theorem C41_fits_grpc_limit_partial (p : Profile) (ts : List Ticket) (work : List (Ticket × List Str))
    (sent : List ChunkedMmfRunRequest) (hwf : p.pools.WF) (ha : ∀ t ∈ ts, t.attributes.isSome) (hw : WorkFor p ts work)
    (hs : chunkedRequest p work = some sent) (hlen : sent.length < 2 ^ 31) (hempty : emptySize p < 4000000)
    (hfit : ∀ t ∈ ts, emptySize p + ticketSize t < 4000000)
    (hbig : ∀ t ∈ ts, 64 ≤ ticketSize t)
    (hnames : (p.pools.map fun e => 37 + 2 * e.1.length).sum ≤ 69000) :
    ∀ r ∈ sent, chunkSize r ≤ 4194304 := by
  have hsame : emptySize p = emptyChunkSize p := rfl
  rw [hsame] at hempty hfit
  have hts : ∀ t, ticketSize t = Wire.sizeTicket t := fun _ => rfl
  have hcs : ∀ r, chunkSize r = Wire.sizeChunk r := fun _ => rfl
  simp only [hts] at hfit hbig
  simp only [hcs]
  obtain ⟨segs, hne, hfl, hok, -, hreq⟩ := chunkedRequest_eq hwf ha hw
  rw [hreq] at hs; cases hs
  intro r hr
  obtain ⟨c, hc, rfl⟩ := List.mem_map.1 hr
  obtain ⟨s, hsm, rfl⟩ := List.mem_map.1 hc
  have hmem : ∀ e ∈ s, e.1 ∈ p.pools.keys ∧ e.2 ∈ ts := by
    intro e he
    have : e ∈ additions p.pools work := by rw [← hfl]; exact List.mem_flatten.2 ⟨s, hsm, he⟩
    simp only [additions, List.mem_flatMap, List.mem_map, List.mem_filter] at this
    obtain ⟨w, hwm, n, ⟨hn, -⟩, rfl⟩ := this
    obtain ⟨q, hq, -⟩ := (mem_validPools hwf n).1 ((hw.2 w hwm).mem_iff.1 hn)
    exact ⟨GoMap.mem_keys.2 ⟨q, GoMap.mem_of_load hq⟩, by rw [← hw.1]; exact List.mem_map_of_mem hwm⟩
  have hbud : emptyChunkSize p + total Wire.sizeTicket s < 4000000 := by
    rcases hok s hsm with h | h
    · exact h
    · match s, h, hmem with
      | [], _, _ => simpa [total] using hempty
      | [e], _, hmem => have := hfit e.2 (hmem e (by simp)).2; simpa [total] using this
  have hslot := Wire.total_slot_le s (fun e he => by
    have h1 := hbig e.2 (hmem e he).2
    have h2 := hfit e.2 (hmem e he).2
    omega)
  have hcost : Wire.nameCost (toChunk s).keys ≤ 69000 := by
    refine le_trans (nameCost_le (ks := p.pools.keys) (toChunk_WF s) ?_) ?_
    · intro k hk
      have : ((toChunk s).load k).isSome := GoMap.load_isSome_iff.2 hk
      rw [toChunk_load] at this
      cases hu : under k s with
      | nil => rw [hu] at this; simp [nz] at this
      | cons t l =>
        have : t ∈ under k s := by rw [hu]; simp
        simp only [under, List.mem_map, List.mem_filter, decide_eq_true_eq] at this
        obtain ⟨e, ⟨he, rfl⟩, -⟩ := this
        exact (hmem e he).1
    · simpa [Wire.nameCost, GoMap.keys, Function.comp_def] using hnames
  have := Wire.sizeChunk_le p segs.length (toChunk s) (by simpa using hlen) (by rw [Wire.chunkSlots_toChunk]; omega)
  rw [Wire.chunkSlots_toChunk] at this
  omega

example : 64 ≤ ticketSize sampleTicket ∧ emptySize sampleProfile + ticketSize sampleTicket < 4000000 ∧
    (sampleProfile.pools.map fun e => 37 + 2 * e.1.length).sum ≤ 69000 := by decide +kernel

/-! ## C42 -/

/-- **C42 is false of the code**: a pool's own name and filters do not reach the MMF. -/
theorem C42_pool_data_refuted :
    ¬ ∀ (p : Profile) (ts : List Ticket) (work : List (Ticket × List Str)) (sent : List ChunkedMmfRunRequest) (q : Profile),
      p.pools.WF → (∀ t ∈ ts, t.attributes.isSome) → WorkFor p ts work → chunkedRequest p work = some sent →
      getChunkedRequest sent = some (.profile (some q), []) →
      ∀ n pool sp, p.pools.load n = some pool → q.pools.load n = some sp →
        sp.name = pool.name ∧ sp.tagPresentFilters = pool.tagPresentFilters ∧ sp.extensions = pool.extensions := by
  intro h
  have := h sampleProfile [sampleTicket, plainTicket] sampleWork
    [chunkRequest sampleProfile 1 [("vips".toList, [sampleTicket]), ("all".toList, [sampleTicket, plainTicket])]]
    ⟨"prof".toList, [("vips".toList, sentPool "vips".toList [sampleTicket]),
      ("all".toList, sentPool "all".toList [sampleTicket, plainTicket])], []⟩
    sampleProfile_wf sample_attributes sampleWork_ok (by decide +kernel) (by decide +kernel)
    "vips".toList samplePool (sentPool "vips".toList [sampleTicket]) (by decide) (by decide)
  exact absurd this.1 (by decide)

/-- **C42, partial**: the profile's name and extensions reach the MMF (extensions up to
map order), and every pool arrives under its key.  Missing from the full statement:
each pool's name, filters and extensions, which the code drops. -/
theorem C42_profile_data_partial (p : Profile) (hwf : p.pools.WF) (ts : List Ticket)
    (ha : ∀ t ∈ ts, t.attributes.isSome) (work : List (Ticket × List Str)) (hw : WorkFor p ts work)
    (sent : List ChunkedMmfRunRequest) (hs : chunkedRequest p work = some sent) (hlen : sent.length < 2 ^ 31)
    (got rest : List ChunkedMmfRunRequest) (hg : List.Forall₂ Received sent got) :
    ∃ q, getChunkedRequest (got ++ rest) = some (.profile (some q), rest) ∧
      q.name = p.name ∧ q.extensions.Perm p.extensions ∧ ∀ n ∈ q.pools.keys, n ∈ p.pools.keys := by
  obtain ⟨segs, hne, hfl, -, -, hreq⟩ := chunkedRequest_eq hwf ha hw
  rw [hreq] at hs; cases hs
  obtain ⟨q, h1, h2, h3, h4⟩ := reassembled (rest := rest) hne (by simpa using hlen) hg
  refine ⟨q, h1, h2, h3, fun n hn => ?_⟩
  by_contra hc
  have := GoMap.load_isSome_iff.2 hn
  rw [h4, hfl, (under_adds hwf hw).2 n (by intro pool hl; exact absurd (GoMap.mem_keys.2 ⟨pool, GoMap.mem_of_load hl⟩) hc)] at this
  cases this

/-- **C42, exactly what is lost.** Every pool that arrives holds its key (as the name of
its roster, with `_roster` appended) and the tickets admitted, and nothing else: no name,
no filter, no extension, whatever the profile said. -/
theorem C42_exactly (p : Profile) (hwf : p.pools.WF) (ts : List Ticket)
    (ha : ∀ t ∈ ts, t.attributes.isSome) (work : List (Ticket × List Str)) (hw : WorkFor p ts work)
    (sent : List ChunkedMmfRunRequest) (hs : chunkedRequest p work = some sent) (hlen : sent.length < 2 ^ 31)
    (got rest : List ChunkedMmfRunRequest) (hg : List.Forall₂ Received sent got) :
    ∃ q, getChunkedRequest (got ++ rest) = some (.profile (some q), rest) ∧
      ∀ n pool sp, p.pools.load n = some pool → q.pools.load n = some sp →
        sp.name = [] ∧ sp.tagPresentFilters = [] ∧ sp.stringEqualsFilters = [] ∧ sp.doubleRangeFilters = [] ∧
        sp.creationTimeRangeFilter = none ∧ sp.extensions = [] ∧
        sp.participants = some ⟨n ++ "_roster".toList, none, participants pool ts, []⟩ := by
  obtain ⟨segs, hne, hfl, -, -, hreq⟩ := chunkedRequest_eq hwf ha hw
  rw [hreq] at hs; cases hs
  obtain ⟨q, h1, -, -, h4⟩ := reassembled (rest := rest) hne (by simpa using hlen) hg
  obtain ⟨u1, u2⟩ := under_adds hwf hw
  refine ⟨q, h1, fun n pool sp hl hq => ?_⟩
  rw [h4, hfl] at hq
  by_cases hbad : BadTimes pool
  · rw [u2 n (by intro q hq; rw [hl] at hq; cases hq; exact hbad)] at hq
    cases hq
  · rw [u1 n pool hl hbad] at hq
    unfold nz at hq
    split at hq
    · cases hq
    · cases hq
      exact ⟨rfl, rfl, rfl, rfl, rfl, rfl, rfl⟩

/-- The sample profile (used above) as it arrives: name and pool keys. -/
example : ∃ sent, chunkedRequest sampleProfile sampleWork = some sent ∧
    (getChunkedRequest sent).map (fun r => match r.1 with
      | .profile (some q) => (q.name, q.pools.keys)
      | _ => ([], [])) = some ("prof".toList, ["vips".toList, "all".toList]) :=
  ⟨[chunkRequest sampleProfile 1 [("vips".toList, [sampleTicket]), ("all".toList, [sampleTicket, plainTicket])]],
    by decide +kernel, by decide +kernel⟩

end OM.Props
