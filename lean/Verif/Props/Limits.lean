import Verif.Lemmas.Limits
import Verif.Props.Round
import Verif.Props.Text
import Mathlib.Data.List.TakeWhile
/-!
# Properties C127, C128: messages that are too long

A player's ticket that is as long as om-core accepts them, in a request to a matchmaking function; and matches that are
too long for om-core.
-/
namespace OM.Props
open OM.Limits OM.Spec

/-- A cached ticket that comes from a CreateTicket request gRPC and om-core accepted, under an id Redis gave it. -/
def Accepted (cfg : Config) (t : Ticket) : Prop :=
  ∃ (r : Ticket) (now : Int) (u : StateUpdate) (c : Cache) (id : RId), requestSize r ≤ 4194304 ∧
    createTicketQueue Wire.codec cfg now (some r) = .ok u ∧
    (applyUpdate Wire.codec c (replicated u id.fmt)).tickets.load id.fmt = some t

/-- om-core sends these chunks to a function with this `Run`, and this is what it makes of it. -/
def Crosses (Run : List ChunkedMmfRunRequest → Mmf.RunRes → Prop) (sent : List ChunkedMmfRunRequest) (f : Relay.Mmf) : Prop :=
  ∃ got r, List.Forall₂ Received (arriving Limits.chunkSize sent).1 got ∧ Run got r ∧ f = seen (arriving Limits.chunkSize sent).2 r

theorem arriving_takeWhile {α : Type} (size : α → Nat) (l : List α) :
    arriving size l = (l.takeWhile (fun m => decide (size m ≤ 4194304)), l.all (fun m => decide (size m ≤ 4194304))) := by
  induction l with
  | nil => rfl
  | cons m ms ih =>
    unfold arriving recvLimit
    by_cases h : 4194304 < size m
    · rw [if_pos h]; simp [Nat.not_le.2 h]
    · rw [if_neg h, ih]; simp [Nat.not_lt.1 h]

theorem arriving_all {α : Type} {size : α → Nat} {l : List α} (h : ∀ m ∈ l, size m ≤ 4194304) : arriving size l = (l, true) := by
  rw [arriving_takeWhile]
  refine Prod.ext ?_ ?_
  · exact List.takeWhile_eq_self_iff.2 fun m hm => by simpa using h m hm
  · exact List.all_eq_true.2 fun m hm => by simpa using h m hm

theorem arriving_cut {α : Type} {size : α → Nat} {l : List α} {m : α} (hm : m ∈ l) (h : 4194304 < size m) :
    ∃ k, k < l.length ∧ arriving size l = (l.take k, false) := by
  induction l with
  | nil => cases hm
  | cons a ms ih =>
    unfold arriving recvLimit
    by_cases ha : 4194304 < size a
    · exact ⟨0, by simp, by rw [if_pos ha]; rfl⟩
    · rcases List.mem_cons.1 hm with rfl | hm
      · exact absurd h ha
      · obtain ⟨k, hk, e⟩ := ih hm
        exact ⟨k + 1, by simpa using hk, by rw [if_neg ha, e]; rfl⟩

theorem forall₂_append {α β : Type} {R : α → β → Prop} {a c : List α} {b d : List β} (h : List.Forall₂ R a b)
    (h' : List.Forall₂ R c d) : List.Forall₂ R (a ++ c) (b ++ d) := by
  induction h with
  | nil => exact h'
  | cons h1 _ ih => exact .cons h1 ih

theorem run_nothing {Run : List ChunkedMmfRunRequest → Mmf.RunRes → Prop} (hRun : Run = SoloRun ∨ Run = RoyaleRun ∨ Run = TeamRun)
    {msgs rest : List ChunkedMmfRunRequest} {r : Mmf.RunRes} (he : getChunkedRequest msgs = some (.err, rest)) (h : Run msgs r) :
    r = ⟨[], false⟩ := by
  rcases hRun with rfl | rfl | rfl
  · obtain ⟨ok, t, now, ord, hord, hrun⟩ := h
    have := no_request ok t (fun _ => []) now ord hord msgs rest he _ (List.mem_cons_self ..)
    rw [hrun] at this
    exact Option.some.inj this
  · obtain ⟨ok, t, now, hrun⟩ := h
    have := no_request ok t (fun _ => []) now id (fun _ => List.Perm.refl _) msgs rest he _ (List.mem_cons_of_mem _ (List.mem_cons_self ..))
    rw [hrun] at this
    exact Option.some.inj this
  · obtain ⟨ok, t, now, hrun⟩ := h
    have := no_request ok [] t now id (fun _ => List.Perm.refl _) msgs rest he _
      (List.mem_cons_of_mem _ (List.mem_cons_of_mem _ (List.mem_cons_self ..)))
    rw [hrun] at this
    exact Option.some.inj this

/-- A chunk that cannot be received: the function sends nothing, and om-core gets an error instead of matches. -/
theorem blinded_of_long_chunk {p : Profile} (hwf : p.pools.WF) {ts : List Ticket} (ha : ∀ t ∈ ts, t.attributes.isSome)
    {work : List (Ticket × List Str)} (hw : WorkFor p ts work) {sent : List ChunkedMmfRunRequest}
    (hs : chunkedRequest p work = some sent) (hl : sent.length < 2 ^ 31) {r : ChunkedMmfRunRequest} (hr : r ∈ sent)
    (hlong : 4194304 < Spec.chunkSize r) {Run : List ChunkedMmfRunRequest → Mmf.RunRes → Prop}
    (hRun : Run = SoloRun ∨ Run = RoyaleRun ∨ Run = TeamRun) {f : Relay.Mmf} (hf : Crosses Run sent f) :
    f.results = [] ∧ f.eof = false := by
  obtain ⟨k, hk, hcut⟩ := arriving_cut (size := Limits.chunkSize) hr hlong
  obtain ⟨got, res, hgot, hrun, rfl⟩ := hf
  rw [hcut] at hgot ⊢
  obtain ⟨sent', h1, -, h3, h4⟩ := C39_framing p hwf ts ha work hw
  obtain rfl : sent' = sent := Option.some.inj (h1.symm.trans hs)
  have hrefl : List.Forall₂ Received (sent'.drop k) (sent'.drop k) := by
    refine List.forall₂_same.2 fun x hx => ?_
    obtain ⟨-, q, hq, -, -⟩ := h3 x (List.drop_subset _ _ hx)
    exact ⟨q, q, hq, hq, rfl, rfl, List.Perm.refl _, List.Perm.refl _⟩
  have hall : List.Forall₂ Received sent' (got ++ sent'.drop k) := by
    have := forall₂_append hgot hrefl
    rwa [List.take_append_drop] at this
  have hlen : got.length = k := by
    have := hgot.length_eq
    rw [List.length_take] at this
    omega
  have herr := (h4 hl _ hall).2 k (by rw [← hall.length_eq]; exact hk)
  rw [List.take_append_of_le_length (by omega), List.take_of_length_le (by omega)] at herr
  have := run_nothing hRun herr hrun
  subst this
  exact ⟨rfl, rfl⟩

/-- **C127, the damage.** One ticket of 4 MiB or more that fits a pool of the profile: whatever other tickets there are, none
of the bundled functions makes a match for that profile, and om-core gets an error from them. -/
theorem C127_blinded (p : Profile) (hwf : p.pools.WF) (ts : List Ticket) (ha : ∀ t ∈ ts, t.attributes.isSome)
    (work : List (Ticket × List Str)) (hw : WorkFor p ts work) (sent : List ChunkedMmfRunRequest)
    (hs : chunkedRequest p work = some sent) (hl : sent.length < 2 ^ 31) (name : Str) (t : Ticket) (ht : Fits p ts name t)
    (hbig : 4194304 ≤ ticketSize t) (Run : List ChunkedMmfRunRequest → Mmf.RunRes → Prop)
    (hRun : Run = SoloRun ∨ Run = RoyaleRun ∨ Run = TeamRun) (f : Relay.Mmf) (hf : Crosses Run sent f) :
    f.results = [] ∧ f.eof = false := by
  obtain ⟨segs, -, hfl, -, -, hreq⟩ := chunkedRequest_eq hwf ha hw
  have hmem : (name, t) ∈ segs.flatten := by
    rw [hfl]
    obtain ⟨htm, pool, hp, hb, hin⟩ := ht
    rw [← hw.1] at htm
    obtain ⟨w, hwm, rfl⟩ := List.mem_map.1 htm
    have hn : name ∈ w.2 := (hw.2 w hwm).mem_iff.2 ((mem_validPools hwf name).2 ⟨pool, hp, (valid_iff pool).2 hb⟩)
    unfold additions
    refine List.mem_flatMap.2 ⟨w, hwm, List.mem_map.2 ⟨name, List.mem_filter.2 ⟨hn, ?_⟩, rfl⟩⟩
    rw [hp, hin]; rfl
  obtain ⟨s, hs', he⟩ := List.mem_flatten.1 hmem
  rw [hreq] at hs; cases hs
  refine blinded_of_long_chunk hwf ha hw hreq hl (r := chunkRequest p segs.length (toChunk s))
    (List.mem_map.2 ⟨_, List.mem_map.2 ⟨s, hs', rfl⟩, rfl⟩) ?_ hRun hf
  have h1 : Wire.chunkSlots (toChunk s) ≤ Spec.chunkSize (chunkRequest p segs.length (toChunk s)) := Wire.sizeChunk_ge _ _ _
  rw [Wire.chunkSlots_toChunk] at h1
  have h2 : Wire.slot t ≤ total Wire.slot s := by
    clear hs' h1
    unfold total
    induction s with
    | nil => cases he
    | cons e s ih =>
      simp only [List.map_cons, List.sum_cons]
      rcases List.mem_cons.1 he with rfl | he
      · exact Nat.le_add_right _ _
      · exact Nat.le_trans (ih he) (Nat.le_add_left _ _)
  have h3 : ticketSize t + 2 ≤ Wire.slot t := by
    have := Wire.vl_pos (Wire.sizeTicket t)
    unfold Wire.slot
    change Wire.sizeTicket t + 2 ≤ _
    omega
  omega

/-- **C127, what the matchmaker sees.** No match at all from any of these functions. -/
theorem C127_no_matches (p : Profile) (hwf : p.pools.WF) (ts : List Ticket) (ha : ∀ t ∈ ts, t.attributes.isSome)
    (work : List (Ticket × List Str)) (hw : WorkFor p ts work) (sent : List ChunkedMmfRunRequest)
    (hs : chunkedRequest p work = some sent) (hl : sent.length < 2 ^ 31) (name : Str) (t : Ticket) (ht : Fits p ts name t)
    (hbig : 4194304 ≤ ticketSize t) (wait : Bool) (fs : List Relay.Mmf)
    (hfs : ∀ f ∈ fs, f.starts = true → ∃ Run, (Run = SoloRun ∨ Run = RoyaleRun ∨ Run = TeamRun) ∧ Crosses Run sent f)
    (ls : List Relay.Label) (s : Relay.St) (hr : Relay.run wait fs (Relay.init fs) ls = some s) :
    Relay.handed s = [] := by
  refine List.eq_nil_iff_forall_not_mem.2 fun o ho => ?_
  obtain ⟨f, hf, hst, hof⟩ := handed_from hr ho
  obtain ⟨Run, hRun, hc⟩ := hfs f hf hst
  rw [(C127_blinded p hwf ts ha work hw sent hs hl name t ht hbig Run hRun f hc).1] at hof
  cases hof

/-! ### Tickets of any length -/

/-- A player's ticket with one tag of `n` letters. -/
def longReq (n : Nat) : Ticket := ⟨[], none, some ⟨[List.replicate n 'a'], [], [], none⟩, []⟩

/-- That ticket in the caches, created on 14 November 2023. -/
def longTicket (n : Nat) (id : RId) : Ticket :=
  { builtTicket Config.default 1700000000000000000 (longReq n) with id := id.fmt }

theorem longReq_size (n : Nat) (h : n < 100000000) : requestSize (longReq n) ≤ n + 15 := by
  unfold requestSize Wire.msgField
  have e1 : (Wire.ser (Wire.ticketF (longReq n))).length ≤ n + 10 := by
    simp only [Wire.ticketF, Wire.ser_length_append]
    have z1 : (Wire.ser (Wire.strField 1 (longReq n).id)).length = 0 := rfl
    have z2 : (Wire.ser (Wire.msgField 2 (Option.map Wire.timestampF (longReq n).expirationTime))).length = 0 := rfl
    have z4 : (Wire.ser (Wire.extF 4 (longReq n).extensions)).length = 0 := rfl
    have e : Wire.dataF ⟨[List.replicate n 'a'], [], [], none⟩ = [(1, .len (List.replicate n 'a'))] := rfl
    have z3 : Wire.msgField 3 (Option.map Wire.dataF (longReq n).attributes) = [(3, .len (Wire.ser [(1, .len (List.replicate n 'a'))]))] := rfl
    rw [z1, z2, z3, z4, Wire.ser_len1 3 _ (by omega), Wire.ser_len1 1 _ (by omega), List.length_replicate]
    have := Wire.vl4 (n := n) (by omega)
    have := Wire.vl4 (n := 1 + Wire.vl n + n) (by omega)
    omega
  have e2 : (Option.some (Wire.ticketF (longReq n))).toList.map (fun m => ((1, Wire.WVal.len (Wire.ser m)) : Wire.Field)) =
      [(1, .len (Wire.ser (Wire.ticketF (longReq n))))] := rfl
  rw [e2, Wire.ser_len1 1 _ (by omega)]
  have := Wire.vl4 (n := (Wire.ser (Wire.ticketF (longReq n))).length) (by omega)
  omega

theorem longTicket_size (n : Nat) (h : n < 100000000) (id : RId) (hid : id.fmt.length = 15) :
    n + 36 ≤ ticketSize (longTicket n id) ∧ ticketSize (longTicket n id) ≤ n + 50 := by
  unfold ticketSize
  simp only [Wire.ticketF, Wire.ser_length_append]
  have hne : id.fmt ≠ [] := by intro h; rw [h] at hid; cases hid
  have z1 : Wire.strField 1 (longTicket n id).id = [(1, .len id.fmt)] := if_neg hne
  have z2 : (Wire.ser (Wire.msgField 2 (Option.map Wire.timestampF (longTicket n id).expirationTime))).length = 8 := by
    have : (longTicket n id).expirationTime = some (storedExpiration Config.default (newTimestamp 1700000000000000000) none) := rfl
    rw [this]; decide +kernel
  have z4 : (Wire.ser (Wire.extF 4 (longTicket n id).extensions)).length = 0 := rfl
  have z3 : Wire.msgField 3 (Option.map Wire.dataF (longTicket n id).attributes) =
      [(3, .len (Wire.ser ([(1, .len (List.replicate n 'a'))] ++ Wire.msgField 4 (some (Wire.timestampF (newTimestamp 1700000000000000000))))))] := rfl
  have z5 : (Wire.ser (Wire.msgField 4 (some (Wire.timestampF (newTimestamp 1700000000000000000))))).length = 8 := by decide +kernel
  rw [z1, z2, z3, z4, Wire.ser_len1 1 _ (by omega), Wire.ser_len1 3 _ (by omega), Wire.ser_length_append, z5,
    Wire.ser_len1 1 _ (by omega), List.length_replicate, hid, Wire.vl1 (by omega)]
  have := Wire.vl4 (n := n) (by omega)
  have := Wire.vl_pos n
  have := Wire.vl4 (n := 1 + Wire.vl n + n + 8) (by omega)
  have := Wire.vl_pos (1 + Wire.vl n + n + 8)
  omega

theorem longTicket_accepted (n : Nat) (h : n ≤ 4194289) (id : RId) : Accepted Config.default (longTicket n id) := by
  have hok : Wire.ticketOk (builtTicket Config.default 1700000000000000000 (longReq n)) = true := by
    have : Wire.utf8Valid (List.replicate n 'a') = true := Wire.utf8Valid_ascii fun c hc => by
      rw [List.eq_of_mem_replicate hc]; decide
    have e : Wire.ticketOk (builtTicket Config.default 1700000000000000000 (longReq n)) =
        (true && (Option.all Wire.tsOk (some (storedExpiration Config.default (newTimestamp 1700000000000000000) none))) &&
          (Option.all Wire.dataOk (some ⟨[List.replicate n 'a'], [], [], some (newTimestamp 1700000000000000000)⟩)) && true) := rfl
    rw [e]
    have e1 : Option.all Wire.tsOk (some (storedExpiration Config.default (newTimestamp 1700000000000000000) none)) = true := by decide +kernel
    have e2 : Wire.tsOk (newTimestamp 1700000000000000000) = true := by decide +kernel
    rw [e1]
    simp [Wire.dataOk, this, e2, Wire.mapOk]
  have henc : Wire.codec.encT (builtTicket Config.default 1700000000000000000 (longReq n)) =
      some (Wire.ser (Wire.ticketF (builtTicket Config.default 1700000000000000000 (longReq n)))) := if_pos hok
  refine ⟨longReq n, 1700000000000000000,
    ⟨.ticket, [], Wire.ser (Wire.ticketF (builtTicket Config.default 1700000000000000000 (longReq n)))⟩, Cache.empty, id,
    Nat.le_trans (longReq_size n (by omega)) (by omega), ?_, ?_⟩
  · simp only [createTicketQueue, henc]
  · have := congrArg KState.t (applyUpdate_proj Wire.codec Cache.empty (replicated ⟨.ticket, [],
      Wire.ser (Wire.ticketF (builtTicket Config.default 1700000000000000000 (longReq n)))⟩ id.fmt) id.fmt)
    rw [show (proj (applyUpdate Wire.codec Cache.empty (replicated ⟨.ticket, [],
      Wire.ser (Wire.ticketF (builtTicket Config.default 1700000000000000000 (longReq n)))⟩ id.fmt)) id.fmt).t = _ from rfl] at this
    have e : (applyUpdate Wire.codec Cache.empty (replicated ⟨.ticket, [],
      Wire.ser (Wire.ticketF (builtTicket Config.default 1700000000000000000 (longReq n)))⟩ id.fmt)).tickets.load id.fmt =
        some { Wire.codec.decT (Wire.ser (Wire.ticketF (builtTicket Config.default 1700000000000000000 (longReq n)))) with id := id.fmt } := by
      simpa [replicated, proj] using this
    rw [e, Wire.codec_decT henc]
    rfl

/-- Every chunk after the first has a ticket. -/
theorem chunks_le {sz : Ticket → Nat} {e : Nat} (a : List (Str × Ticket)) (l : List (List (Str × Ticket)))
    (h : (a :: l).IsChain (NeededSplit sz e)) : l.length ≤ l.flatten.length := by
  induction l generalizing a with
  | nil => simp
  | cons b l ih =>
    have h' := List.isChain_cons_cons.1 h
    have := ih b h'.2
    obtain ⟨x, rest, rfl, -⟩ := h'.1
    simp only [List.length_cons, List.flatten_cons, List.length_append]
    omega

theorem chunkCount {p : Profile} (hwf : p.pools.WF) {ts : List Ticket} (ha : ∀ t ∈ ts, t.attributes.isSome)
    {work : List (Ticket × List Str)} (hw : WorkFor p ts work) {sent : List ChunkedMmfRunRequest}
    (hs : chunkedRequest p work = some sent) : sent.length ≤ (additions p.pools work).length + 1 := by
  obtain ⟨segs, hne, hfl, -, hch, hreq⟩ := chunkedRequest_eq hwf ha hw
  rw [hreq] at hs; cases hs
  match segs, hne, hch, hfl with
  | [], hne, _, _ => exact absurd rfl hne
  | a :: l, _, hch, hfl =>
    have h1 := chunks_le a l hch
    rw [← hfl]
    simp only [List.length_map, List.length_cons, List.flatten_cons, List.length_append]
    omega

/-! ### The counterexample -/

/-- One pool that admits everybody. -/
def openProfile : Profile := ⟨"duels".toList, [("p".toList, plainPool)], []⟩

def id0 : RId := (1700000000000, 0)
def id1 : RId := (1700000000000, 1)
def id2 : RId := (1700000000000, 2)

theorem in_plainPool (t : Ticket) (h : t.attributes.isSome) : Filter.In (some plainPool) (some t) = some true := by
  obtain ⟨d, hd⟩ := Option.isSome_iff_exists.1 h
  cases t
  cases hd
  rfl

/-- Every ticket is tried against the one pool. -/
def openWork (ts : List Ticket) : List (Ticket × List Str) := ts.map (·, ["p".toList])

theorem openWork_for (ts : List Ticket) : WorkFor openProfile ts (openWork ts) := by
  refine ⟨by simp [openWork, Function.comp_def], ?_⟩
  intro w hw
  obtain ⟨t, -, rfl⟩ := List.mem_map.1 hw
  exact List.Perm.of_eq (show ["p".toList] = validPools openProfile.pools by decide)

theorem open_wf : openProfile.pools.WF := by simp [GoMap.WF, GoMap.keys, openProfile]

theorem open_additions (ts : List Ticket) (ha : ∀ t ∈ ts, t.attributes.isSome) :
    additions openProfile.pools (openWork ts) = ts.map ("p".toList, ·) := by
  induction ts with
  | nil => rfl
  | cons t l ih =>
    have h1 := in_plainPool t (ha t (by simp))
    have h2 := ih (fun x hx => ha x (by simp [hx]))
    unfold additions openWork at h2 ⊢
    rw [List.map_cons, List.flatMap_cons, h2, List.filter_cons_of_pos (by
      rw [show openProfile.pools.load "p".toList = some plainPool from rfl]; simpa using h1)]
    rfl

theorem participants_open (ts : List Ticket) (ha : ∀ t ∈ ts, t.attributes.isSome) : participants plainPool ts = ts :=
  List.filter_eq_self.2 fun t ht => by simpa using in_plainPool t (ha t ht)

theorem open_not_bad : ¬ BadTimes plainPool := by rintro ⟨f, hf, -⟩; cases hf

/-- What a function gets of these tickets, if all chunks reach it. -/
theorem open_seen (ts : List Ticket) (ha : ∀ t ∈ ts, t.attributes.isSome) (hts : ts ≠ []) {sent got : List ChunkedMmfRunRequest}
    (hs : chunkedRequest openProfile (openWork ts) = some sent) (hl : sent.length < 2 ^ 31) (hg : List.Forall₂ Received sent got) :
    ∃ q, getChunkedRequest got = some (.profile (some q), []) ∧ q.name = "duels".toList ∧ allTickets q.pools = ts := by
  obtain ⟨sent', h1, h2⟩ := C38_mmf_receives_exactly_the_matching_tickets _ open_wf ts ha _ (openWork_for ts)
  obtain rfl : sent' = sent := Option.some.inj (h1.symm.trans hs)
  obtain ⟨q, h3, h4, h5⟩ := h2 hl got [] hg
  have hname := (C39_name_and_extensions _ open_wf ts ha _ (openWork_for ts) _ hs hl got [] hg q [] h3).1
  rw [List.append_nil] at h3
  have hqw := getChunks_wf got 1 [] q [] (by simp [GoMap.WF]) h3
  obtain ⟨sp, r, a1, a2, a3⟩ := h4 "p".toList plainPool rfl open_not_bad (by rw [participants_open ts ha]; exact hts)
  rw [participants_open ts ha] at a3
  refine ⟨q, h3, hname, ?_⟩
  have hone : q.pools = [("p".toList, sp)] := by
    have hk : ∀ e ∈ q.pools, e = ("p".toList, sp) := by
      intro e he
      have hle := GoMap.load_of_mem hqw he
      by_cases hn : e.1 = "p".toList
      · rw [hn, a1] at hle
        exact Prod.ext hn (Option.some.inj hle).symm
      · rw [h5 e.1 (fun pool hp => absurd (GoMap.mem_of_load hp) (by simp [openProfile]; intro h; exact absurd h hn))] at hle
        cases hle
    have hnd : q.pools.Nodup := List.Nodup.of_map _ hqw
    match hq : q.pools, hk, hnd with
    | [], _, _ => rw [hq] at a1; cases a1
    | [e], hk, _ => rw [hk e (by simp)]
    | e :: e' :: _, hk, hnd =>
      have h1 := hk e (by simp)
      have h2 := hk e' (by simp)
      rw [h1, h2] at hnd
      simp at hnd
  rw [hone]
  simp [allTickets, a2, a3]

/-- What soloduel makes of the pair of tickets, when every send works. -/
theorem open_duel (a b : Ticket) (ha : ∀ t ∈ [a, b], t.attributes.isSome) {sent : List ChunkedMmfRunRequest}
    (hs : chunkedRequest openProfile (openWork [a, b]) = some sent) (hl : sent.length < 2 ^ 31) :
    ∃ r m, SoloRun sent r ∧ r.sent = [m] ∧ r.err = false ∧
      m = ⟨Mmf.matchId Mmf.soloName [] 0, [(Mmf.rosterName Mmf.soloName 0,
        ⟨Mmf.rosterName Mmf.soloName 0, none, [a, b], [("CreationTime".toList, Mmf.anyTime ⟨0, 0⟩)]⟩)],
        Mmf.extensionsFor Mmf.soloName "duels".toList⟩ := by
  obtain ⟨sent', h1, -, h3, -⟩ := C39_framing _ open_wf _ ha _ (openWork_for [a, b])
  obtain rfl : sent' = sent := Option.some.inj (h1.symm.trans hs)
  have hrefl : List.Forall₂ Received sent' sent' := by
    refine List.forall₂_same.2 fun x hx => ?_
    obtain ⟨-, q, hq, -, -⟩ := h3 x hx
    exact ⟨q, q, hq, hq, rfl, rfl, List.Perm.refl _, List.Perm.refl _⟩
  obtain ⟨q, hq, hname, htix⟩ := open_seen _ ha (by simp) hs hl hrefl
  obtain ⟨r, k, hr, hk, hsent⟩ := solo_run (fun _ => true) [] (fun _ => ⟨0, 0⟩) q.pools q
  rw [htix] at hk hsent
  rw [show [a, b].length / 2 = 1 by simp] at hk
  have hk' : k = 1 ∧ r.err = false := by
    rcases hk.2 with ⟨h1, h2⟩ | ⟨-, -, h3⟩
    · exact ⟨h2, h1⟩
    · cases h3
  obtain ⟨rfl, herr⟩ := hk'
  refine ⟨r, _, ⟨fun _ => true, [], fun _ => ⟨0, 0⟩, id, fun _ => List.Perm.refl _, ?_⟩, ?_, herr, rfl⟩
  · simp only [Mmf.withRequest, hq]
    exact hr
  · rw [hsent, hname]; rfl

/-- **C127, the full statement**: a ticket that om-core accepted does not keep the others from being matched: if soloduel
can make a match for them without it, it can with it. -/
def C127_statement : Prop :=
  ∀ (cfg : Config) (p : Profile) (ts : List Ticket) (t : Ticket) (work work' : List (Ticket × List Str))
    (sent sent' : List ChunkedMmfRunRequest) (f : Relay.Mmf),
    p.pools.WF → ((ts ++ [t]).map (·.id)).Nodup → (∀ x ∈ ts ++ [t], Accepted cfg x) →
    WorkFor p ts work → WorkFor p (ts ++ [t]) work' → chunkedRequest p work = some sent → chunkedRequest p work' = some sent' →
    sent'.length < 2 ^ 31 → Crosses SoloRun sent f → f.results ≠ [] → ∃ f', Crosses SoloRun sent' f' ∧ f'.results ≠ []

/-- Chunks of tickets that are long enough and not too long. -/
theorem open_chunks (ts : List Ticket) (ha : ∀ t ∈ ts, t.attributes.isSome) {sent : List ChunkedMmfRunRequest}
    (hs : chunkedRequest openProfile (openWork ts) = some sent) (hl : sent.length < 2 ^ 31)
    (h : ∀ t ∈ ts, 64 ≤ ticketSize t ∧ ticketSize t < 3000000) : ∀ r ∈ sent, Spec.chunkSize r ≤ 4194304 := by
  have he : emptySize openProfile < 100 := by decide +kernel
  exact C41_fits_grpc_limit_partial openProfile ts _ sent open_wf ha (openWork_for ts) hs hl (by omega)
    (fun t ht => by have := h t ht; omega) (fun t ht => (h t ht).1) (by decide)

/-- **C127 is false of the code**: two players who would be matched, and a third with a ticket of 4 MiB. -/
theorem C127_one_ticket_stops_all_refuted : ¬ C127_statement := by
  intro h
  have hid : ∀ i ∈ [id0, id1, id2], (RId.fmt i).length = 15 := by decide
  have hsz : ∀ n i, n < 100000000 → i ∈ [id0, id1, id2] → n + 36 ≤ ticketSize (longTicket n i) ∧ ticketSize (longTicket n i) ≤ n + 50 :=
    fun n i hn hi => longTicket_size n hn i (hid i hi)
  have hatt : ∀ n i, (longTicket n i).attributes.isSome := fun _ _ => rfl
  have ha : ∀ t ∈ [longTicket 40 id0, longTicket 40 id1], t.attributes.isSome := by
    intro t ht; simp only [List.mem_cons, List.not_mem_nil, or_false] at ht
    rcases ht with rfl | rfl <;> exact hatt _ _
  have ha' : ∀ t ∈ [longTicket 40 id0, longTicket 40 id1] ++ [longTicket 4194289 id2], t.attributes.isSome := by
    intro t ht; simp only [List.mem_cons, List.not_mem_nil, or_false, List.cons_append, List.nil_append] at ht
    rcases ht with rfl | rfl | rfl <;> exact hatt _ _
  obtain ⟨sent, hs, -⟩ := C39_framing _ open_wf _ ha _ (openWork_for _)
  obtain ⟨sent', hs', -⟩ := C39_framing _ open_wf _ ha' _ (openWork_for _)
  have hl : sent.length < 2 ^ 31 := by
    have := chunkCount open_wf ha (openWork_for _) hs
    rw [open_additions _ ha] at this
    simp at this; omega
  have hl' : sent'.length < 2 ^ 31 := by
    have := chunkCount open_wf ha' (openWork_for _) hs'
    rw [open_additions _ ha'] at this
    simp at this; omega
  have hfit := open_chunks _ ha hs hl (by
    intro t ht; simp only [List.mem_cons, List.not_mem_nil, or_false] at ht
    rcases ht with rfl | rfl
    · have := hsz 40 id0 (by omega) (by simp); omega
    · have := hsz 40 id1 (by omega) (by simp); omega)
  obtain ⟨r, m, hrun, hr, -, hm⟩ := open_duel _ _ ha hs hl
  have harr : arriving Limits.chunkSize sent = (sent, true) := arriving_all hfit
  have hrefl : List.Forall₂ Received sent sent := by
    obtain ⟨sent₂, h1, -, h3, -⟩ := C39_framing _ open_wf _ ha _ (openWork_for _)
    obtain rfl : sent₂ = sent := Option.some.inj (h1.symm.trans hs)
    refine List.forall₂_same.2 fun x hx => ?_
    obtain ⟨-, q, hq, -, -⟩ := h3 x hx
    exact ⟨q, q, hq, hq, rfl, rfl, List.Perm.refl _, List.Perm.refl _⟩
  have hms : responseSize m ≤ 4194304 := by
    have hslots := slots_le [longTicket 40 id0, longTicket 40 id1] (by
      intro t ht; simp only [List.mem_cons, List.not_mem_nil, or_false] at ht
      rcases ht with rfl | rfl
      · exact Nat.le_trans (hsz 40 id0 (by omega) (by simp)).2 (by omega)
      · exact Nat.le_trans (hsz 40 id1 (by omega) (by simp)).2 (by omega))
    simp only [List.length_cons, List.length_nil] at hslots
    have hrn : (Mmf.rosterName Mmf.soloName 0).length < 50000 := by decide +kernel
    have hid' : (Mmf.matchId Mmf.soloName [] 0).length ≤ 10000 := by decide +kernel
    have hsn : Mmf.soloName.length < 1000 := by decide +kernel
    have hroom := rosterEntry_le (Mmf.rosterName Mmf.soloName 0) (Mmf.rosterName Mmf.soloName 0)
      [longTicket 40 id0, longTicket 40 id1] [("CreationTime".toList, Mmf.anyTime ⟨0, 0⟩)] [] hrn hrn (by omega)
      (time_ext_le 4 (by omega) _ (by decide) _)
    have hext := extensions_le Mmf.soloName "duels".toList [] hsn (by decide)
    rw [List.append_nil] at hext
    have z : (Wire.ser (Wire.mapField 2 ([] : GoMap Roster) fun r => .len (Wire.ser (Wire.rosterF r)))).length = 0 := rfl
    have z' : (Wire.ser (Wire.extF 3 [])).length = 0 := rfl
    have z'' : "duels".toList.length = 5 := rfl
    rw [hm]
    refine response_le _ hid' ?_ ?_
    · unfold rostersRoom; simp only; omega
    · change (Wire.ser (Wire.extF 3 (Mmf.extensionsFor Mmf.soloName "duels".toList))).length ≤ 20000
      omega
  have hres : (seen true r).results = [some m] := by
    unfold seen
    rw [hr, arriving_all (l := [m]) (by intro x hx; rw [List.mem_singleton.1 hx]; exact hms)]
    rfl
  obtain ⟨f', hf', hne⟩ := h Config.default openProfile [longTicket 40 id0, longTicket 40 id1] (longTicket 4194289 id2) _ _ sent sent'
    (seen true r) open_wf (by
      have : ([longTicket 40 id0, longTicket 40 id1] ++ [longTicket 4194289 id2]).map (·.id) = [id0.fmt, id1.fmt, id2.fmt] := rfl
      rw [this]; decide)
    (by
      intro t ht; simp only [List.mem_cons, List.not_mem_nil, or_false, List.cons_append, List.nil_append] at ht
      rcases ht with rfl | rfl | rfl
      · exact longTicket_accepted 40 (by omega) _
      · exact longTicket_accepted 40 (by omega) _
      · exact longTicket_accepted 4194289 (Nat.le_refl _) _)
    (openWork_for _) (openWork_for _) hs hs' hl'
    ⟨sent, r, by rw [harr]; exact hrefl, hrun, by rw [harr]⟩
    (by rw [hres]; simp)
  refine hne (C127_blinded openProfile open_wf _ ha' _ (openWork_for _) sent' hs' hl' "p".toList (longTicket 4194289 id2)
    ⟨by simp, plainPool, rfl, open_not_bad, in_plainPool _ (hatt _ _)⟩ ?_ SoloRun (Or.inl rfl) f' hf').1
  have := hsz 4194289 id2 (by omega) (by simp)
  omega

/-- **C127, partial**: with tickets of at least 64 bytes that leave room for the profile, and pool names that are not
excessively many or long, every chunk arrives, and the function has exactly the tickets that fit.  The full statement
(`C127_statement`) is for all accepted tickets. -/
theorem C127_reasonable_tickets_partial (p : Profile) (hwf : p.pools.WF) (ts : List Ticket) (ha : ∀ t ∈ ts, t.attributes.isSome)
    (work : List (Ticket × List Str)) (hw : WorkFor p ts work) (sent : List ChunkedMmfRunRequest)
    (hs : chunkedRequest p work = some sent) (hl : sent.length < 2 ^ 31) (hempty : emptySize p < 4000000)
    (hfit : ∀ t ∈ ts, emptySize p + ticketSize t < 4000000) (hmin : ∀ t ∈ ts, 64 ≤ ticketSize t)
    (hnames : (p.pools.map fun e => 37 + 2 * e.1.length).sum ≤ 69000) :
    (arriving Limits.chunkSize sent).2 = true ∧
    ∀ got, List.Forall₂ Received (arriving Limits.chunkSize sent).1 got →
      ∃ q, getChunkedRequest got = some (.profile (some q), []) ∧ q.name = p.name ∧
        (∀ n pool, p.pools.load n = some pool → ¬ BadTimes pool → poolTickets q n = participants pool ts) ∧
        (∀ n, (∀ pool, p.pools.load n = some pool → BadTimes pool) → poolTickets q n = []) := by
  have hall := C41_fits_grpc_limit_partial p ts work sent hwf ha hw hs hl hempty hfit hmin hnames
  have harr : arriving Limits.chunkSize sent = (sent, true) := arriving_all hall
  rw [harr]
  refine ⟨rfl, fun got hg => ?_⟩
  obtain ⟨sent', h1, h2⟩ := C38_mmf_receives_exactly_the_matching_tickets p hwf ts ha work hw
  obtain rfl : sent' = sent := Option.some.inj (h1.symm.trans hs)
  obtain ⟨q, h3, h4, h5⟩ := h2 hl got [] hg
  have hname := (C39_name_and_extensions p hwf ts ha work hw _ hs hl got [] hg q [] h3).1
  rw [List.append_nil] at h3
  refine ⟨q, h3, hname, fun n pool hp hb => ?_, fun n hn => ?_⟩
  · by_cases he : participants pool ts = []
    · unfold poolTickets
      rw [h5 n (fun pool' hp' => Or.inr (by rw [hp] at hp'; cases hp'; exact he)), he]
    · obtain ⟨sp, r, a1, a2, a3⟩ := h4 n pool hp hb he
      unfold poolTickets
      simp only [a1, a2, a3]
  · unfold poolTickets
    rw [h5 n (fun pool hp => Or.inl (hn pool hp))]

/-! ## C128 -/

/-- **C128, the full statement**: om-core receives every match that a bundled function sends. -/
def C128_statement : Prop :=
  ∀ (Run : List ChunkedMmfRunRequest → Mmf.RunRes → Prop) (cfg : Config) (p : Profile) (ts : List Ticket)
    (work : List (Ticket × List Str)) (sent got : List ChunkedMmfRunRequest) (r : Mmf.RunRes),
    (Run = SoloRun ∨ Run = RoyaleRun ∨ Run = TeamRun) → p.pools.WF → (ts.map (·.id)).Nodup → (∀ t ∈ ts, Accepted cfg t) →
    WorkFor p ts work → chunkedRequest p work = some sent → sent.length < 2 ^ 31 → (∀ c ∈ sent, Spec.chunkSize c ≤ 4194304) →
    List.Forall₂ Received sent got → Run got r → (seen true r).results = r.sent.map some

/-- **C128, what is lost**: om-core gets the matches before the first one that is too long, and then an error; it gets all of
them if none is. -/
theorem C128_up_to_the_first_long_match (whole : Bool) (r : Mmf.RunRes) :
    (∀ a m b, r.sent = a ++ m :: b → (∀ x ∈ a, responseSize x ≤ 4194304) → 4194304 < responseSize m →
      (seen whole r).results = a.map some ∧ (seen whole r).eof = false) ∧
    ((∀ x ∈ r.sent, responseSize x ≤ 4194304) →
      (seen whole r).results = r.sent.map some ∧ (seen whole r).eof = (whole && !r.err)) := by
  constructor
  · intro a m b h1 h2 h3
    have : arriving responseSize r.sent = (a, false) := by
      rw [h1]
      clear h1
      induction a with
      | nil => simp only [List.nil_append]; unfold arriving recvLimit; rw [if_pos h3]
      | cons x a ih =>
        have hx := h2 x (by simp)
        simp only [List.cons_append]
        unfold arriving recvLimit
        rw [if_neg (by omega), ih fun y hy => h2 y (List.mem_cons_of_mem _ hy)]
        rfl
    simp [seen, this]
  · intro h
    simp [seen, arriving_all h]

theorem two_slots (a b : Ticket) (ha : 2200036 ≤ ticketSize a) (hb : 2200036 ≤ ticketSize b) : 4194304 < Wire.slots [a, b] := by
  unfold ticketSize at ha hb
  simp only [Wire.slots, List.map_cons, List.map_nil, List.sum_cons, List.sum_nil, Wire.slot, Wire.sizeTicket]
  omega

/-- **C128 is false of the code**: a duel of two players with tickets of 2.2 MB each. -/
theorem C128_every_match_arrives_refuted : ¬ C128_statement := by
  intro h
  have hid : ∀ i ∈ [id0, id1, id2], (RId.fmt i).length = 15 := by decide
  have hsz : ∀ i, i ∈ [id0, id1, id2] → 2200036 ≤ ticketSize (longTicket 2200000 i) ∧ ticketSize (longTicket 2200000 i) ≤ 2200050 :=
    fun i hi => longTicket_size 2200000 (by omega) i (hid i hi)
  have hatt : ∀ n i, (longTicket n i).attributes.isSome := fun _ _ => rfl
  have ha : ∀ t ∈ [longTicket 2200000 id0, longTicket 2200000 id1], t.attributes.isSome := by
    intro t ht; simp only [List.mem_cons, List.not_mem_nil, or_false] at ht
    rcases ht with rfl | rfl <;> exact hatt _ _
  obtain ⟨sent, hs, -, h3, -⟩ := C39_framing _ open_wf _ ha _ (openWork_for _)
  have hl : sent.length < 2 ^ 31 := by
    have := chunkCount open_wf ha (openWork_for _) hs
    rw [open_additions _ ha] at this
    simp at this; omega
  have hfit := open_chunks _ ha hs hl (by
    intro t ht; simp only [List.mem_cons, List.not_mem_nil, or_false] at ht
    rcases ht with rfl | rfl
    · have := hsz id0 (by simp); omega
    · have := hsz id1 (by simp); omega)
  obtain ⟨r, m, hrun, hr, -, hm⟩ := open_duel _ _ ha hs hl
  have hrefl : List.Forall₂ Received sent sent := by
    refine List.forall₂_same.2 fun x hx => ?_
    obtain ⟨-, q, hq, -, -⟩ := h3 x hx
    exact ⟨q, q, hq, hq, rfl, rfl, List.Perm.refl _, List.Perm.refl _⟩
  have hms : 4194304 < responseSize m := by
    rw [hm]
    refine Nat.lt_of_lt_of_le ?_ (response_ge _ _ _ _ _ _)
    exact two_slots _ _ (hsz id0 (by simp)).1 (hsz id1 (by simp)).1
  have := h SoloRun Config.default openProfile [longTicket 2200000 id0, longTicket 2200000 id1] _ sent sent r (Or.inl rfl) open_wf
    (by
      have : [longTicket 2200000 id0, longTicket 2200000 id1].map (·.id) = [id0.fmt, id1.fmt] := rfl
      rw [this]; decide)
    (by
      intro t ht; simp only [List.mem_cons, List.not_mem_nil, or_false] at ht
      rcases ht with rfl | rfl <;> exact longTicket_accepted 2200000 (by omega) _)
    (openWork_for _) hs hl hfit hrefl hrun
  have hnone := ((C128_up_to_the_first_long_match true r).1 [] m [] hr (fun _ hx => nomatch hx) hms).1
  clear hms hm hsz hfit hrun
  rw [hr] at this
  exact List.cons_ne_nil _ _ (this.symm.trans hnone)

theorem names_short : Mmf.soloName.length ≤ 100 ∧ Mmf.brName.length ≤ 100 ∧ Mmf.tsName.length ≤ 100 ∧
    (Mmf.teamName 1).length ≤ 100 ∧ (Mmf.teamName 2).length ≤ 100 := by decide +kernel

/-- A match with one roster of at most 100 short tickets. -/
theorem oneRoster_size (name t prof : Str) (n : Nat) (now : Timestamp) (tix : List Ticket) (hname : name.length ≤ 100)
    (hprof : prof.length ≤ 10000) (hid : (Mmf.matchId name t n).length ≤ 10000) (hlen : tix.length ≤ 100)
    (hsz : ∀ x ∈ tix, ticketSize x ≤ 41000) :
    responseSize ⟨Mmf.matchId name t n, [(Mmf.rosterName name n, ⟨Mmf.rosterName name n, none, tix,
      [("CreationTime".toList, Mmf.anyTime now)]⟩)], Mmf.extensionsFor name prof⟩ ≤ 4194304 := by
  have h1 := slots_le tix hsz
  have h2 : 41005 * tix.length ≤ 4100500 := by omega
  have h3 : (Mmf.rosterName name n).length ≤ 10200 := by
    have := fmtNatPad_le 4 n
    have := matchId_ge name t n
    unfold Mmf.rosterName
    simp only [List.length_append]
    have : "_roster".toList.length = 7 := rfl
    omega
  have h4 := rosterEntry_le (Mmf.rosterName name n) (Mmf.rosterName name n) tix [("CreationTime".toList, Mmf.anyTime now)] []
    (by omega) (by omega) (by omega) (time_ext_le 4 (by omega) _ (by decide) _)
  have h5 := extensions_le name prof [] (by omega) hprof
  rw [List.append_nil] at h5
  have z : (Wire.ser (Wire.mapField 2 ([] : GoMap Roster) fun r => .len (Wire.ser (Wire.rosterF r)))).length = 0 := rfl
  have z' : (Wire.ser (Wire.extF 3 [])).length = 0 := rfl
  refine response_le _ hid ?_ ?_
  · unfold rostersRoom; simp only; omega
  · simp only; omega

/-- A match of two teams of at most five players. -/
theorem twoTeams_size (t prof : Str) (n : Nat) (now : Timestamp) (a b : List Ticket)
    (hprof : prof.length ≤ 10000) (hid : (Mmf.matchId Mmf.tsName t n).length ≤ 10000) (ha : a.length ≤ 5) (hb : b.length ≤ 5)
    (hsa : ∀ x ∈ a, ticketSize x ≤ 41000) (hsb : ∀ x ∈ b, ticketSize x ≤ 41000) :
    responseSize ⟨Mmf.matchId Mmf.tsName t n, [(Mmf.teamName 1, ⟨Mmf.teamName 1, none, a, []⟩), (Mmf.teamName 2, ⟨Mmf.teamName 2, none, b, []⟩)],
      Mmf.extensionsFor Mmf.tsName prof ++ [("creationTime".toList, Mmf.anyTime now)]⟩ ≤ 4194304 := by
  obtain ⟨-, -, n3, n4, n5⟩ := names_short
  have h1 := slots_le a hsa
  have h2 := slots_le b hsb
  have h4 := rosterEntry_le (Mmf.teamName 1) (Mmf.teamName 1) a [] [(Mmf.teamName 2, ⟨Mmf.teamName 2, none, b, []⟩)]
    (by omega) (by omega) (by omega) (by decide)
  have h4' := rosterEntry_le (Mmf.teamName 2) (Mmf.teamName 2) b [] [] (by omega) (by omega) (by omega) (by decide)
  have h5 := extensions_le Mmf.tsName prof [("creationTime".toList, Mmf.anyTime now)] (by omega) hprof
  have h6 := time_ext_le 3 (by omega) "creationTime".toList (by decide) now
  have z : (Wire.ser (Wire.mapField 2 ([] : GoMap Roster) fun r => .len (Wire.ser (Wire.rosterF r)))).length = 0 := rfl
  refine response_le _ hid ?_ ?_
  · unfold rostersRoom; simp only; omega
  · simp only; omega

/-- **C128, partial**: if no ticket is longer than 41,000 bytes and neither the profile's name nor the matches' ids are
longer than 10,000, om-core gets every match, and an error only if the function reports one. -/
theorem C128_short_tickets_partial (Run : List ChunkedMmfRunRequest → Mmf.RunRes → Prop)
    (hRun : Run = SoloRun ∨ Run = RoyaleRun ∨ Run = TeamRun) (p : Profile) (hwf : p.pools.WF) (ts : List Ticket)
    (ha : ∀ t ∈ ts, t.attributes.isSome) (work : List (Ticket × List Str)) (hw : WorkFor p ts work)
    (sent got : List ChunkedMmfRunRequest) (hs : chunkedRequest p work = some sent) (hl : sent.length < 2 ^ 31)
    (hg : List.Forall₂ Received sent got) (r : Mmf.RunRes) (hrun : Run got r) (hsz : ∀ t ∈ ts, ticketSize t ≤ 41000)
    (hname : p.name.length ≤ 10000) (hid : ∀ m ∈ r.sent, m.id.length ≤ 10000) :
    (seen true r).results = r.sent.map some ∧ (seen true r).eof = !r.err := by
  suffices h : ∀ m ∈ r.sent, responseSize m ≤ 4194304 by
    have := (C128_up_to_the_first_long_match true r).2 h
    simpa using this
  obtain ⟨n1, n2, -⟩ := names_short
  have hreq := request_seen hwf ha hw hs hl hg got.length
  rw [List.take_length] at hreq
  rcases hreq with ⟨rest, he⟩ | ⟨q, hq, hqw, hqt⟩
  · rw [run_nothing hRun he hrun]; intro m hm; cases hm
  have hprof : q.name.length ≤ 10000 := by
    rw [(C39_name_and_extensions p hwf ts ha work hw sent hs hl got [] hg q [] (by rw [List.append_nil]; exact hq)).1]
    exact hname
  have hpool : ∀ n, ∀ x ∈ poolTickets q n, ticketSize x ≤ 41000 := fun n x hx => hsz x (fits_of_seen hqt hx).1
  rcases hRun with rfl | rfl | rfl
  · obtain ⟨ok, t, now, ord, hord, hrun⟩ := hrun
    simp only [Mmf.withRequest, hq] at hrun
    obtain ⟨r', k, h1, -, h3⟩ := solo_run ok t now (ord q.pools) q
    obtain rfl : r' = r := Option.some.inj (h1.symm.trans hrun)
    intro m hm
    have hidm := hid m hm
    rw [h3] at hm
    obtain ⟨n, -, rfl⟩ := List.mem_map.1 hm
    refine oneRoster_size _ _ _ _ _ _ n1 hprof hidm (Nat.le_trans (List.length_take_le _ _) (by omega)) fun x hx => ?_
    have hx' := List.drop_subset _ _ (List.take_subset _ _ hx)
    obtain ⟨e, he, r2, h8, h9⟩ := mem_allTickets.1 hx'
    have he' : e ∈ q.pools := (hord _).mem_iff.1 he
    refine hpool e.1 x ?_
    unfold poolTickets
    simp only [GoMap.load_of_mem hqw he', h8, h9]
  · obtain ⟨ok, t, now, hrun⟩ := hrun
    simp only [Mmf.withRequest, hq] at hrun
    obtain ⟨r', k, h1, -, h3⟩ := br_run ok t now q
    obtain rfl : r' = r := Option.some.inj (h1.symm.trans hrun)
    intro m hm
    have hidm := hid m hm
    rw [h3] at hm
    obtain ⟨n, -, rfl⟩ := List.mem_map.1 hm
    exact oneRoster_size _ _ _ _ _ _ n2 hprof hidm (List.length_take_le _ _) fun x hx =>
      hpool _ x (List.drop_subset _ _ (List.take_subset _ _ hx))
  · obtain ⟨ok, t, now, hrun⟩ := hrun
    simp only [Mmf.withRequest, hq] at hrun
    obtain ⟨r', k, h1, -, h3⟩ := ts_run ok t now q
    obtain rfl : r' = r := Option.some.inj (h1.symm.trans hrun)
    intro m hm
    have hidm := hid m hm
    rw [h3] at hm
    obtain ⟨n, -, rfl⟩ := List.mem_map.1 hm
    have hteam : ∀ i, (Mmf.team q.pools n i).length ≤ 5 ∧ ∀ x ∈ Mmf.team q.pools n i, ticketSize x ≤ 41000 := by
      intro i
      unfold Mmf.team
      simp only [Mmf.participants_load]
      refine ⟨by simp only [List.length_append, List.length_take]; omega, fun x hx => ?_⟩
      rcases List.mem_append.1 hx with hx | hx
      · rcases List.mem_append.1 hx with hx | hx <;> exact hpool _ x (List.drop_subset _ _ (List.take_subset _ _ hx))
      · exact hpool _ x (List.drop_subset _ _ (List.take_subset _ _ hx))
    exact twoTeams_size _ _ _ _ _ _ hprof hidm (hteam 0).1 (hteam 1).1 (hteam 0).2 (hteam 1).2

/-- Two players whose tickets arrive and who are matched; the third whose ticket is too long for a chunk of its own. -/
example : Accepted Config.default (longTicket 40 id0) ∧ ticketSize (longTicket 40 id0) ≤ 41000 ∧
    Accepted Config.default (longTicket 4194289 id2) ∧ 4194304 ≤ ticketSize (longTicket 4194289 id2) ∧
    Fits openProfile [longTicket 40 id0, longTicket 4194289 id2] "p".toList (longTicket 4194289 id2) := by
  have h0 := longTicket_size 40 (by omega) id0 (by decide)
  have h2 := longTicket_size 4194289 (by omega) id2 (by decide)
  have hatt : ∀ n i, (longTicket n i).attributes.isSome := fun _ _ => rfl
  exact ⟨longTicket_accepted 40 (by omega) _, Nat.le_trans h0.2 (by omega), longTicket_accepted _ (Nat.le_refl _) _,
    Nat.le_trans (by omega) h2.1, List.mem_cons_of_mem _ (List.mem_cons_self ..), plainPool, rfl, open_not_bad, in_plainPool _ (hatt _ _)⟩

end OM.Props
