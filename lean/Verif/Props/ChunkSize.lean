import Verif.Lemmas.Size
/-! # Properties: how far a chunk can exceed its budget (C41) -/
namespace OM.Props
open OM.Spec

/-- The pools of a chunk, as the function receives them. -/
def chunkPools (r : ChunkedMmfRunRequest) : GoMap Pool := (r.profile.map (·.pools)).getD []

/-- How many tickets a chunk carries (one in two pools counts twice). -/
def placed (r : ChunkedMmfRunRequest) : Nat :=
  ((chunkPools r).map fun e => ((e.2.participants.map (·.tickets)).getD []).length).sum

/-- The room the pools of a chunk take beside their tickets, at most. -/
def poolRoom (r : ChunkedMmfRunRequest) : Nat := ((chunkPools r).map fun e => 37 + 2 * e.1.length).sum

private def count (c : Chunk) : Nat := (c.map fun e => e.2.length).sum

private theorem count_delete {c : Chunk} (hwf : c.WF) (n : Str) :
    count c = count (c.delete n) + ((c.load n).getD []).length := by
  induction c with
  | nil => simp [count, GoMap.delete]
  | cons e c ih =>
    have hwf' : GoMap.WF c := (List.nodup_cons.1 hwf).2
    have hne : e.1 ∉ GoMap.keys c := (List.nodup_cons.1 hwf).1
    rw [GoMap.load_cons]
    by_cases h : e.1 = n
    · subst h
      have : GoMap.delete c e.1 = c := by
        unfold GoMap.delete
        apply List.filter_eq_self.2
        intro x hx
        simp only [decide_eq_true_eq]
        intro hx'
        exact hne (by rw [← hx']; exact List.mem_map_of_mem hx)
      simp only [GoMap.delete, ne_eq, decide_not] at this
      simp [count, GoMap.delete, this, Nat.add_comm]
    · have ih' := ih hwf'
      simp only [count, GoMap.delete, List.map_cons, List.sum_cons] at ih' ⊢
      simp only [h, if_false]
      rw [List.filter_cons_of_pos (by simpa using h)]
      simp only [List.map_cons, List.sum_cons]
      omega

private theorem count_appendTo {c : Chunk} (hwf : c.WF) (n : Str) (t : Ticket) :
    count (appendTo c n t) = count c + 1 := by
  rw [count_delete hwf n]
  unfold appendTo GoMap.store count
  simp only [List.map_append, List.sum_append, List.map_cons, List.map_nil, List.sum_cons, List.sum_nil, List.length_append]
  simp; omega

private theorem count_toChunk (l : List (Str × Ticket)) : count (toChunk l) = l.length := by
  have key : ∀ (l : List (Str × Ticket)) (c : Chunk), c.WF →
      count (l.foldl (fun c e => appendTo c e.1 e.2) c) = count c + l.length := by
    intro l
    induction l with
    | nil => intro c _; rfl
    | cons e l ih =>
      intro c hwf
      rw [List.foldl_cons, ih _ (appendTo_WF hwf _ _), count_appendTo hwf, List.length_cons]
      omega
  unfold toChunk
  rw [key l [] GoMap.WF_nil]
  simp [count]

private theorem total_slot_few (l : List (Str × Ticket)) (h : ∀ e ∈ l, Wire.sizeTicket e.2 < 4000000) :
    total Wire.slot l ≤ total Wire.sizeTicket l + 5 * l.length := by
  induction l with
  | nil => simp [total]
  | cons e l ih =>
    have h1 := ih (fun x hx => h x (by simp [hx]))
    have h2 := h e (by simp)
    have h3 := Wire.vl4 (n := Wire.sizeTicket e.2) (by omega)
    have h4 : Wire.slot e.2 = 1 + Wire.vl (Wire.sizeTicket e.2) + Wire.sizeTicket e.2 := rfl
    simp only [total, List.map_cons, List.sum_cons, List.length_cons] at h1 ⊢
    omega

private theorem ticket_pos {t : Ticket} (h : t.attributes.isSome) : 1 ≤ Wire.sizeTicket t := by
  obtain ⟨a, ha⟩ := Option.isSome_iff_exists.1 h
  unfold Wire.sizeTicket Wire.ticketF
  simp only [Wire.ser_length_append, ha, Option.map_some]
  have h5 : ∀ m, Wire.msgField 3 (some m) = [(3, .len (Wire.ser m))] := fun _ => rfl
  rw [h5, Wire.ser_len1 3 _ (by omega)]
  omega

private theorem length_le_total (l : List (Str × Ticket)) (h : ∀ e ∈ l, 1 ≤ Wire.sizeTicket e.2) :
    l.length ≤ total Wire.sizeTicket l := by
  induction l with
  | nil => simp [total]
  | cons e l ih =>
    have h1 := ih (fun x hx => h x (by simp [hx]))
    have h2 := h e (by simp)
    simp only [total, List.map_cons, List.sum_cons, List.length_cons] at h1 ⊢
    omega

/-- The names of a profile's pools are counted in the size of the empty request. -/
private theorem names_counted (m : GoMap Pool) :
    (m.map fun e => 37 + 2 * e.1.length).sum
      ≤ 10 * (Wire.ser (Wire.mapField 2 m fun q => .len (Wire.ser (Wire.poolF q)))).length := by
  induction m with
  | nil => simp
  | cons e m ih =>
    rw [Wire.mapField_cons, Wire.ser_len1 2 _ (by omega), Wire.ser_cons_length, Wire.ser_len1 1 _ (by omega), Wire.ser_len1 2 _ (by omega)]
    have v1 := Wire.vl_pos e.1.length
    have v2 := Wire.vl_pos (Wire.ser (Wire.poolF e.2)).length
    simp only [List.map_cons, List.sum_cons] at ih ⊢
    omega

private theorem names_le {c ks : List Str} (hnd : c.Nodup) (hsub : ∀ k ∈ c, k ∈ ks) :
    Wire.nameCost c ≤ Wire.nameCost ks := by
  induction c generalizing ks with
  | nil => simp [Wire.nameCost]
  | cons k c ih =>
    have hk := hsub k (by simp)
    have hnd' := List.nodup_cons.1 hnd
    have := ih (ks := ks.erase k) hnd'.2 (by
      intro x hx
      have hne : x ≠ k := by rintro rfl; exact hnd'.1 hx
      exact (List.mem_erase_of_ne hne).2 (hsub x (by simp [hx])))
    have hp := (List.perm_cons_erase hk).map (fun k : Str => 37 + 2 * k.length)
    unfold Wire.nameCost at this ⊢
    rw [hp.sum_nat, List.map_cons, List.map_cons, List.sum_cons, List.sum_cons]
    omega

/-- **C41 (how far a chunk can exceed its budget).** If every single ticket fits, a chunk takes
at most the 4,000,000 bytes of the budget, five bytes for every ticket in it, and for every pool in
it 37 bytes and twice its name; whatever the tickets, however small. -/
theorem C41_bound (p : Profile) (ts : List Ticket) (work : List (Ticket × List Str))
    (sent : List ChunkedMmfRunRequest) (hwf : p.pools.WF) (ha : ∀ t ∈ ts, t.attributes.isSome) (hw : WorkFor p ts work)
    (hs : chunkedRequest p work = some sent) (hlen : sent.length < 2 ^ 31) (hempty : emptySize p < 4000000)
    (hfit : ∀ t ∈ ts, emptySize p + ticketSize t < 4000000) :
    ∀ r ∈ sent, chunkSize r < 4000004 + 5 * placed r + poolRoom r := by
  have hsame : emptySize p = emptyChunkSize p := rfl
  rw [hsame] at hempty hfit
  have hts : ∀ t, ticketSize t = Wire.sizeTicket t := fun _ => rfl
  have hcs : ∀ r, chunkSize r = Wire.sizeChunk r := fun _ => rfl
  simp only [hts] at hfit
  simp only [hcs]
  obtain ⟨segs, hne, hfl, hok, -, hreq⟩ := chunkedRequest_eq hwf ha hw
  rw [hreq] at hs; cases hs
  intro r hr
  obtain ⟨c, hc, rfl⟩ := List.mem_map.1 hr
  obtain ⟨s, hsm, rfl⟩ := List.mem_map.1 hc
  have hmem : ∀ e ∈ s, e.1 ∈ p.pools.keys ∧ e.2 ∈ ts := by
    intro e he
    have : e ∈ additions p.pools work := by rw [← hfl]; exact List.mem_flatten.2 ⟨s, hsm, he⟩
    simp only [additions, List.mem_flatMap, List.mem_map, List.mem_filter] at this
    obtain ⟨w, hwm, n, ⟨hn, -⟩, rfl⟩ := this
    obtain ⟨q, hq, -⟩ := (mem_validPools hwf n).1 ((hw.2 w hwm).mem_iff.1 hn)
    exact ⟨GoMap.mem_keys.2 ⟨q, GoMap.mem_of_load hq⟩, by rw [← hw.1]; exact List.mem_map_of_mem hwm⟩
  have hbud : emptyChunkSize p + total Wire.sizeTicket s < 4000000 := by
    rcases hok s hsm with h | h
    · exact h
    · match s, h, hmem with
      | [], _, _ => simpa [total] using hempty
      | [e], _, hmem => have := hfit e.2 (hmem e (by simp)).2; simpa [total] using this
  have hslot := total_slot_few s (fun e he => by have := hfit e.2 (hmem e he).2; omega)
  have hn := length_le_total s (fun e he => ticket_pos (ha e.2 (hmem e he).2))
  have hcost : Wire.nameCost (toChunk s).keys ≤ 40000000 := by
    refine le_trans (names_le (ks := p.pools.keys) (toChunk_WF s) ?_) ?_
    · intro k hk
      have : ((toChunk s).load k).isSome := GoMap.load_isSome_iff.2 hk
      rw [toChunk_load] at this
      cases hu : under k s with
      | nil => rw [hu] at this; simp [nz] at this
      | cons t l =>
        have : t ∈ under k s := by rw [hu]; simp
        simp only [under, List.mem_map, List.mem_filter, decide_eq_true_eq] at this
        obtain ⟨e, ⟨he, rfl⟩, -⟩ := this
        exact (hmem e he).1
    · have h1 := names_counted p.pools
      have h2 : (Wire.ser (Wire.mapField 2 p.pools fun q => .len (Wire.ser (Wire.poolF q)))).length ≤ emptyChunkSize p := by
        unfold emptyChunkSize Wire.sizeChunk Wire.chunkF
        simp only [Option.map_some]
        have h5 : ∀ m, Wire.msgField 1 (some m) = [(1, .len (Wire.ser m))] := fun _ => rfl
        rw [h5, Wire.ser_length_append, Wire.ser_len1 1 _ (by omega)]
        unfold Wire.profileF
        simp only [Wire.ser_length_append]
        omega
      have h3 : Wire.nameCost p.pools.keys = (p.pools.map fun e => 37 + 2 * e.1.length).sum := by
        simp [Wire.nameCost, GoMap.keys, Function.comp_def]
      omega
  have := Wire.sizeChunk_le p segs.length (toChunk s) (by simpa using hlen) (by rw [Wire.chunkSlots_toChunk]; omega)
  rw [Wire.chunkSlots_toChunk] at this
  have hpl : placed (chunkRequest p segs.length (toChunk s)) = s.length := by
    rw [← count_toChunk s]
    simp [placed, chunkPools, chunkRequest, count, Function.comp_def, sentPool]
  have hnm : poolRoom (chunkRequest p segs.length (toChunk s)) = Wire.nameCost (toChunk s).keys := by
    simp [poolRoom, chunkPools, chunkRequest, Wire.nameCost, GoMap.keys, Function.comp_def]
  rw [hpl, hnm]
  omega

/-- **C41, partial**: a chunk of at most 25,000 tickets, in pools whose names are not excessively
many or long, is within 4 MiB, whatever the sizes of the tickets.  The full statement has neither
restriction. -/
theorem C41_few_partial (p : Profile) (ts : List Ticket) (work : List (Ticket × List Str))
    (sent : List ChunkedMmfRunRequest) (hwf : p.pools.WF) (ha : ∀ t ∈ ts, t.attributes.isSome) (hw : WorkFor p ts work)
    (hs : chunkedRequest p work = some sent) (hlen : sent.length < 2 ^ 31) (hempty : emptySize p < 4000000)
    (hfit : ∀ t ∈ ts, emptySize p + ticketSize t < 4000000) :
    ∀ r ∈ sent, placed r ≤ 25000 → poolRoom r ≤ 69000 → chunkSize r ≤ 4194304 := by
  intro r hr h1 h2
  have := C41_bound p ts work sent hwf ha hw hs hlen hempty hfit r hr
  omega

private def egPool : Pool := ⟨"any".toList, [⟨"x".toList⟩], [], [], none, none, []⟩
private def egP : Profile := ⟨"duel".toList, [("red".toList, egPool), ("blue".toList, egPool)], []⟩
private def egT (id : String) : Ticket := ⟨id.toList, none, some ⟨["x".toList], [], [], none⟩, []⟩

-- Two tickets, each in two pools: four tickets placed in one chunk.
example : (chunkedRequest egP [(egT "1-0", ["red".toList, "blue".toList]), (egT "2-0", ["blue".toList, "red".toList])]).map
      (·.map fun r => (placed r, poolRoom r)) = some [(4, 88)] ∧
    emptySize egP + ticketSize (egT "1-0") < 4000000 ∧ validPools egP.pools = ["red".toList, "blue".toList] := by
  decide +kernel

end OM.Props
