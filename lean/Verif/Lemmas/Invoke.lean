import Verif.Model.Invoke
import Verif.Spec.Invoke
import Verif.Lemmas.Go
import Verif.Lemmas.Filter
import Mathlib.Data.List.Chain
/-! # Lemmas: chunking and reassembly -/
namespace OM
open Spec

/-- Absent when empty. -/
def nz (l : List Ticket) : Option (List Ticket) := if l = [] then none else some l

@[simp] theorem nz_getD (l : List Ticket) : (nz l).getD [] = l := by
  unfold nz; split <;> simp_all

theorem under_append (n : Str) (a b : List (Str × Ticket)) : under n (a ++ b) = under n a ++ under n b := by
  simp [under]

theorem under_cons (n : Str) (e : Str × Ticket) (l : List (Str × Ticket)) :
    under n (e :: l) = (if e.1 = n then [e.2] else []) ++ under n l := by
  unfold under; by_cases h : e.1 = n <;> simp [h]

theorem total_append (sz : Ticket → Nat) (a b : List (Str × Ticket)) : total sz (a ++ b) = total sz a + total sz b := by
  simp [total]

/-! ## Chunks as lists of additions -/

def toChunk (l : List (Str × Ticket)) : Chunk := l.foldl (fun c e => appendTo c e.1 e.2) []

theorem toChunk_append (l : List (Str × Ticket)) (e : Str × Ticket) :
    toChunk (l ++ [e]) = appendTo (toChunk l) e.1 e.2 := by simp [toChunk]

theorem appendTo_WF {c : Chunk} (h : c.WF) (n : Str) (t : Ticket) : (appendTo c n t).WF := GoMap.WF_store h _ _

theorem toChunk_foldl (l : List (Str × Ticket)) (c : Chunk) (d : Str → List Ticket) (hwf : c.WF)
    (h : ∀ n, c.load n = nz (d n)) :
    (l.foldl (fun c e => appendTo c e.1 e.2) c).WF ∧
    ∀ n, (l.foldl (fun c e => appendTo c e.1 e.2) c).load n = nz (d n ++ under n l) := by
  induction l generalizing c d with
  | nil => exact ⟨hwf, fun n => by simp [under, h]⟩
  | cons e l ih =>
    have h' : ∀ n, (appendTo c e.1 e.2).load n = nz (d n ++ (if e.1 = n then [e.2] else [])) := by
      intro n
      unfold appendTo
      rw [GoMap.load_store, h, nz_getD]
      by_cases hn : n = e.1
      · subst hn; simp [nz]
      · rw [if_neg hn, if_neg (fun h => hn h.symm), h]; simp
    obtain ⟨w, i⟩ := ih _ _ (appendTo_WF hwf e.1 e.2) h'
    refine ⟨w, fun n => ?_⟩
    rw [List.foldl_cons, i, under_cons, List.append_assoc]

theorem toChunk_load (l : List (Str × Ticket)) (n : Str) : (toChunk l).load n = nz (under n l) := by
  have := (toChunk_foldl l [] (fun _ => []) GoMap.WF_nil (fun n => by simp [nz])).2 n
  simpa [toChunk] using this

theorem toChunk_WF (l : List (Str × Ticket)) : (toChunk l).WF :=
  (toChunk_foldl l [] (fun _ => []) GoMap.WF_nil (fun n => by simp [nz])).1

/-- The chunking state with additions kept in order. -/
structure Flat where
  full : List (List (Str × Ticket))
  cur : List (Str × Ticket)

def flatAdd (sz : Ticket → Nat) (empty : Nat) (f : Flat) (e : Str × Ticket) : Flat :=
  if empty + total sz f.cur + sz e.2 ≥ maxPbSize then ⟨f.full ++ [f.cur], [e]⟩ else ⟨f.full, f.cur ++ [e]⟩

def Flat.st (sz : Ticket → Nat) (empty : Nat) (f : Flat) : ChunkSt :=
  ⟨f.full.map toChunk, toChunk f.cur, empty + total sz f.cur⟩

theorem addTicket_flat (sz : Ticket → Nat) (empty : Nat) (f : Flat) (e : Str × Ticket) :
    addTicket sz empty (f.st sz empty) e.1 e.2 = (flatAdd sz empty f e).st sz empty := by
  unfold addTicket flatAdd Flat.st
  by_cases h : empty + total sz f.cur + sz e.2 ≥ maxPbSize
  · simp only [h, if_true]
    simp [toChunk, total]
  · simp only [h, if_false]
    rw [toChunk_append, total_append]
    simp [total, Nat.add_assoc]

theorem foldl_flat (sz : Ticket → Nat) (empty : Nat) (adds : List (Str × Ticket)) (f : Flat) :
    adds.foldl (fun st e => addTicket sz empty st e.1 e.2) (f.st sz empty)
      = (adds.foldl (flatAdd sz empty) f).st sz empty := by
  induction adds generalizing f with
  | nil => rfl
  | cons e adds ih => rw [List.foldl_cons, List.foldl_cons, addTicket_flat, ih]

def Flat.segs (f : Flat) : List (List (Str × Ticket)) := f.full ++ [f.cur]

structure FlatInv (sz : Ticket → Nat) (empty : Nat) (adds : List (Str × Ticket)) (f : Flat) : Prop where
  flat : f.segs.flatten = adds
  ok : ∀ s ∈ f.segs, SegOk sz empty s
  chain : f.segs.IsChain (NeededSplit sz empty)

theorem flatAdd_inv {sz : Ticket → Nat} {empty : Nat} {adds : List (Str × Ticket)} {f : Flat}
    (h : FlatInv sz empty adds f) (e : Str × Ticket) : FlatInv sz empty (adds ++ [e]) (flatAdd sz empty f e) := by
  obtain ⟨h1, h2, h3⟩ := h
  unfold flatAdd
  by_cases hs : empty + total sz f.cur + sz e.2 ≥ maxPbSize
  · rw [if_pos hs]
    refine ⟨by simp [Flat.segs, ← h1], ?_, ?_⟩
    · intro s hsm
      simp only [Flat.segs, List.mem_append, List.mem_singleton] at hsm
      rcases hsm with hsm | rfl
      · exact h2 s (by simpa [Flat.segs] using hsm)
      · exact Or.inr (by simp)
    · show ((f.full ++ [f.cur]) ++ [[e]]).IsChain _
      rw [List.isChain_append]
      refine ⟨h3, by simp, ?_⟩
      intro x hx y hy
      simp at hx hy
      subst hx; subst hy
      exact ⟨e, [], rfl, hs⟩
  · rw [if_neg hs]
    refine ⟨by rw [← h1]; simp [Flat.segs], ?_, ?_⟩
    · intro s hsm
      simp only [Flat.segs, List.mem_append, List.mem_singleton] at hsm
      rcases hsm with hsm | rfl
      · exact h2 s (by simp [Flat.segs, hsm])
      · left; rw [total_append]; simp [total, maxPbSize] at hs ⊢; omega
    · simp only [Flat.segs] at h3 ⊢
      rw [List.isChain_append] at h3 ⊢
      refine ⟨h3.1, by simp, ?_⟩
      intro x hx y hy
      simp at hy
      obtain ⟨e', rest, he', hle⟩ := h3.2.2 x hx f.cur (by simp)
      exact ⟨e', rest ++ [e], by rw [← hy, he']; rfl, hle⟩

theorem foldl_inv {sz : Ticket → Nat} {empty : Nat} (l : List (Str × Ticket)) {adds : List (Str × Ticket)} {f : Flat}
    (h : FlatInv sz empty adds f) : FlatInv sz empty (adds ++ l) (l.foldl (flatAdd sz empty) f) := by
  induction l generalizing adds f with
  | nil => simpa using h
  | cons e l ih =>
    have := ih (flatAdd_inv h e)
    simpa using this

theorem flat_init (sz : Ticket → Nat) (empty : Nat) : FlatInv sz empty [] ⟨[], []⟩ :=
  ⟨rfl, by intro s hs; simp [Flat.segs] at hs; subst hs; exact Or.inr (by simp), by simp [Flat.segs]⟩

/-! ## The double loop -/

/-- What the loops add, in order. -/
def additions (ps : GoMap Pool) (work : List (Ticket × List Str)) : List (Str × Ticket) :=
  work.flatMap fun w => (w.2.filter fun n => decide (Filter.In (ps.load n) (some w.1) = some true)).map (·, w.1)

theorem offers_eq {sz : Ticket → Nat} {empty : Nat} {ps : GoMap Pool} {t : Ticket} (names : List Str)
    (h : ∀ n ∈ names, Filter.In (ps.load n) (some t) ≠ none) (st : ChunkSt) :
    names.foldlM (offer sz empty ps t) st = some
      (((names.filter fun n => decide (Filter.In (ps.load n) (some t) = some true)).map (·, t)).foldl
        (fun st e => addTicket sz empty st e.1 e.2) st) := by
  induction names generalizing st with
  | nil => rfl
  | cons n names ih =>
    rw [List.foldlM_cons]
    have hn := h n (by simp)
    have ih' := ih (fun m hm => h m (by simp [hm]))
    cases hi : Filter.In (ps.load n) (some t) with
    | none => exact absurd hi hn
    | some b =>
      cases b with
      | false =>
        have : offer sz empty ps t st n = some st := by simp [offer, hi]
        rw [this]
        simp [hi, ih']
      | true =>
        have : offer sz empty ps t st n = some (addTicket sz empty st n t) := by simp [offer, hi]
        rw [this]
        simp [hi, ih']

theorem fill_eq {sz : Ticket → Nat} {empty : Nat} {ps : GoMap Pool} (work : List (Ticket × List Str))
    (h : ∀ w ∈ work, ∀ n ∈ w.2, Filter.In (ps.load n) (some w.1) ≠ none) :
    fillPools sz empty ps work = some
      (((additions ps work).foldl (flatAdd sz empty) ⟨[], []⟩).st sz empty) := by
  have key : ∀ (work : List (Ticket × List Str)) (st : ChunkSt),
      (∀ w ∈ work, ∀ n ∈ w.2, Filter.In (ps.load n) (some w.1) ≠ none) →
      work.foldlM (fun st w => w.2.foldlM (offer sz empty ps w.1) st) st
        = some ((additions ps work).foldl (fun st e => addTicket sz empty st e.1 e.2) st) := by
    intro work
    induction work with
    | nil => intro st _; rfl
    | cons w work ih =>
      intro st hw
      rw [List.foldlM_cons, offers_eq w.2 (hw w (by simp)) st]
      show work.foldlM _ _ = _
      rw [ih _ (fun w' hw' => hw w' (by simp [hw']))]
      simp [additions]
  unfold fillPools
  rw [key work _ h]
  have := foldl_flat sz empty (additions ps work) ⟨[], []⟩
  simp only [Flat.st, List.map_nil] at this
  rw [← Flat.st] at this
  exact congrArg some (by simpa [Flat.st, toChunk, total] using this)

theorem validPools_nodup {ps : GoMap Pool} (h : ps.WF) : (validPools ps).Nodup := by
  unfold validPools
  exact (GoMap.WF_filter h _)

theorem mem_validPools {ps : GoMap Pool} (h : ps.WF) (n : Str) :
    n ∈ validPools ps ↔ ∃ p, ps.load n = some p ∧ Filter.validatePoolFilters (some p) = none := by
  unfold validPools
  simp only [List.mem_map, List.mem_filter, Option.isNone_iff_eq_none]
  constructor
  · rintro ⟨e, ⟨h1, h2⟩, rfl⟩
    exact ⟨e.2, GoMap.load_of_mem h h1, h2⟩
  · rintro ⟨p, h1, h2⟩
    exact ⟨(n, p), ⟨GoMap.mem_of_load h1, h2⟩, rfl⟩

theorem under_map_pair (n : Str) (t : Ticket) (l : List Str) (h : l.Nodup) :
    under n (l.map (·, t)) = if n ∈ l then [t] else [] := by
  induction l with
  | nil => simp [under]
  | cons m l ih =>
    rw [List.map_cons, under_cons, ih h.of_cons]
    by_cases hm : m = n
    · subst hm
      have : m ∉ l := (List.nodup_cons.1 h).1
      simp [this]
    · have : ¬ n = m := fun h => hm h.symm
      simp [hm, this]

/-- What ends up under one name: the snapshot's tickets the pool admits. -/
theorem under_additions {p : Profile} (hwf : p.pools.WF) {ts : List Ticket} {work : List (Ticket × List Str)}
    (hw : WorkFor p ts work) (n : Str) :
    under n (additions p.pools work) =
      if n ∈ validPools p.pools then
        ts.filter fun t => decide (Filter.In (p.pools.load n) (some t) = some true) else [] := by
  obtain ⟨rfl, hord⟩ := hw
  have hnd := validPools_nodup hwf
  induction work with
  | nil => simp [additions, under]
  | cons w work ih =>
    have ih' := ih (fun w' hw' => hord w' (by simp [hw']))
    have hp := hord w (by simp)
    have : additions p.pools (w :: work) =
        ((w.2.filter fun n => decide (Filter.In (p.pools.load n) (some w.1) = some true)).map (·, w.1))
          ++ additions p.pools work := by simp [additions]
    rw [this, under_append, ih', under_map_pair]
    · have hmem : n ∈ w.2 ↔ n ∈ validPools p.pools := hp.mem_iff
      by_cases hv : n ∈ validPools p.pools
      · by_cases hi : Filter.In (p.pools.load n) (some w.1) = some true
        · simp [hmem, hv, hi]
        · simp [hmem, hv, hi]
      · simp [hmem, hv]
    · exact (hp.nodup_iff.2 hnd).filter _

/-! ## Reassembly -/

def asPools (acc : Chunk) : GoMap Pool := acc.map fun e => (e.1, sentPool e.1 e.2)

theorem asPools_load (acc : Chunk) (n : Str) : (asPools acc).load n = (acc.load n).map (sentPool n) := by
  induction acc with
  | nil => rfl
  | cons e acc ih =>
    simp only [asPools, List.map_cons, GoMap.load_cons] at ih ⊢
    by_cases h : e.1 = n
    · simp [h]
    · simp [h, ih]

theorem asPools_store (acc : Chunk) (n : Str) (ts : List Ticket) :
    (asPools acc).store n (sentPool n ts) = asPools (acc.store n ts) := by
  unfold GoMap.store GoMap.delete asPools
  rw [List.map_append, List.filter_map]
  rfl

def mergeOne (acc : Chunk) (e : Str × List Ticket) : Chunk := acc.store e.1 ((acc.load e.1).getD [] ++ e.2)
def mergeC (acc c : Chunk) : Chunk := c.foldl mergeOne acc

theorem mergePool_sent (acc : Chunk) (e : Str × List Ticket) :
    mergePool (asPools acc) (e.1, sentPool e.1 e.2) = some (asPools (mergeOne acc e)) := by
  unfold mergePool mergeOne
  simp only [asPools_load]
  cases h : acc.load e.1 with
  | none => simp [asPools_store]
  | some ts =>
    simp only [Option.map_some, sentPool, Option.getD_some]
    rw [← asPools_store]; rfl

theorem merge_fold (c acc : Chunk) :
    (asPools c).foldlM mergePool (asPools acc) = some (asPools (mergeC acc c)) := by
  induction c generalizing acc with
  | nil => rfl
  | cons e c ih =>
    have : asPools (e :: c) = (e.1, sentPool e.1 e.2) :: asPools c := rfl
    rw [this, List.foldlM_cons, mergePool_sent]
    exact ih _

theorem mergeC_load {c : Chunk} (hwf : c.WF) (acc : Chunk) (n : Str) :
    (mergeC acc c).load n =
      match c.load n with | none => acc.load n | some ts => some ((acc.load n).getD [] ++ ts) := by
  induction c generalizing acc with
  | nil => rfl
  | cons e c ih =>
    have hwf' : GoMap.WF c := (List.nodup_cons.1 hwf).2
    have : mergeC acc (e :: c) = mergeC (mergeOne acc e) c := rfl
    rw [this, ih hwf', GoMap.load_cons]
    have hne : e.1 ∉ GoMap.keys c := (List.nodup_cons.1 hwf).1
    by_cases h : e.1 = n
    · subst h
      rw [GoMap.load_eq_none_iff.2 hne]
      simp [mergeOne]
    · have h' : ¬ n = e.1 := fun x => h x.symm
      simp [h, mergeOne, GoMap.load_store, h']

/-- The chunk holds the segment's tickets, as a map. -/
def Holds (s : List (Str × Ticket)) (c : Chunk) : Prop := c.WF ∧ ∀ n, c.load n = nz (under n s)

theorem holds_toChunk (s : List (Str × Ticket)) : Holds s (toChunk s) := ⟨toChunk_WF s, toChunk_load s⟩

theorem holds_perm {s : List (Str × Ticket)} {c c' : Chunk} (h : Holds s c) (hp : c'.Perm c) : Holds s c' :=
  ⟨GoMap.WF_perm hp.symm h.1, fun n => by rw [← GoMap.load_perm hp.symm h.1, h.2]⟩

theorem merges_load {segs : List (List (Str × Ticket))} {cs : List Chunk} (hf : List.Forall₂ Holds segs cs)
    (acc : Chunk) (done : List (Str × Ticket)) (h : ∀ n, acc.load n = nz (under n done)) (n : Str) :
    (cs.foldl mergeC acc).load n = nz (under n (done ++ segs.flatten)) := by
  induction hf generalizing acc done with
  | nil => simp [h]
  | @cons s c segs cs hs _ ih =>
    rw [List.foldl_cons, ih (mergeC acc c) (done ++ s)]
    · simp
    · intro n
      rw [mergeC_load hs.1, hs.2, h, nz_getD, under_append]
      by_cases hs : under n s = []
      · simp [hs, nz]
      · simp [hs, nz]

/-- A request chunk as it arrives. -/
def msg (name : Str) (n : Nat) (c : Chunk × GoMap AnyPb) : ChunkedMmfRunRequest :=
  ⟨some ⟨name, asPools c.1, c.2⟩, n⟩

theorem getChunks_ok (name : Str) (n : Nat) (hn : n < 2 ^ 31) (rest : List ChunkedMmfRunRequest) :
    ∀ (cs : List (Chunk × GoMap AnyPb)) (i : Nat) (acc : Chunk) (hne : cs ≠ []), i + cs.length = n + 1 →
    getChunks i (asPools acc) (cs.map (msg name n) ++ rest) =
      some (.profile (some ⟨name, asPools ((cs.map (·.1)).foldl mergeC acc), (cs.getLast hne).2⟩), rest) := by
  intro cs
  induction cs with
  | nil => intro i acc h; exact absurd rfl h
  | cons c cs ih =>
    intro i acc _ hi
    simp only [List.length_cons] at hi
    unfold getChunks
    rw [if_neg (by omega)]
    simp only [List.map_cons, List.cons_append, msg, Option.map_some, Option.getD_some]
    rw [merge_fold c.1 acc]
    cases cs with
    | nil =>
      have : (n : Int) = (i : Int) := by simp at hi; omega
      simp [this]
    | cons c' cs =>
      have : ¬ (n : Int) = (i : Int) := by simp at hi; omega
      simp only [this, if_false]
      have := ih (i + 1) (mergeC acc c.1) (by simp) (by simp at hi ⊢; omega)
      rw [this]
      simp

theorem getChunks_short (name : Str) (n : Nat) (hn : n < 2 ^ 31) :
    ∀ (cs : List (Chunk × GoMap AnyPb)) (i : Nat) (acc : Chunk), i + cs.length ≤ n →
    getChunks i (asPools acc) (cs.map (msg name n)) = some (.err, []) := by
  intro cs
  induction cs with
  | nil => intro i acc h; unfold getChunks; rw [if_neg (by simp at h; omega)]; rfl
  | cons c cs ih =>
    intro i acc hi
    simp only [List.length_cons] at hi
    unfold getChunks
    rw [if_neg (by omega)]
    simp only [List.map_cons, msg, Option.map_some, Option.getD_some]
    rw [merge_fold c.1 acc]
    have : ¬ (n : Int) = (i : Int) := by omega
    simp only [this, if_false]
    exact ih (i + 1) (mergeC acc c.1) (by omega)

/-! ## Transport -/

/-- Reads a sent pool back. -/
def unsend (e : Str × Pool) : Str × List Ticket := (e.1, (e.2.participants.map (·.tickets)).getD [])

theorem perm_asPools {l : GoMap Pool} {c : Chunk} (h : l.Perm (asPools c)) :
    ∃ c', c'.Perm c ∧ l = asPools c' := by
  have hid : ∀ c : Chunk, (asPools c).map unsend = c := by
    intro c; unfold asPools; rw [List.map_map]
    apply List.map_id''
    intro e; rfl
  refine ⟨l.map unsend, ?_, ?_⟩
  · have := h.map unsend; rwa [hid] at this
  · unfold asPools
    have : ∀ e ∈ l, (fun e : Str × List Ticket => (e.1, sentPool e.1 e.2)) (unsend e) = e := by
      intro e he
      obtain ⟨x, -, rfl⟩ := List.mem_map.1 (h.mem_iff.1 he)
      rfl
    rw [List.map_map]
    conv_lhs => rw [← List.map_id l]
    exact List.map_congr_left fun e he => (this e he).symm

theorem received_eq {p : Profile} {n : Nat} : ∀ {cs : List Chunk} {got : List ChunkedMmfRunRequest},
    List.Forall₂ Received (cs.map (chunkRequest p n)) got →
    ∃ ms : List (Chunk × GoMap AnyPb), got = ms.map (msg p.name n) ∧
      List.Forall₂ (fun c m => m.1.Perm c ∧ m.2.Perm p.extensions) cs ms := by
  intro cs
  induction cs with
  | nil => intro got h; cases h; exact ⟨[], rfl, .nil⟩
  | cons c cs ih =>
    intro got h
    cases h with
    | cons h1 h2 =>
      obtain ⟨ms, rfl, hms⟩ := ih h2
      rename_i g
      obtain ⟨q, p', hp', hq, hnum, hname, hext, hpools⟩ := h1
      simp only [chunkRequest, Option.some.injEq] at hp'
      subst hp'
      obtain ⟨c', hc', hl⟩ := perm_asPools hpools
      refine ⟨(c', q.extensions) :: ms, ?_, .cons ⟨hc', hext⟩ hms⟩
      obtain ⟨gp, gn⟩ := g
      obtain ⟨qn, qp, qe⟩ := q
      simp only at hq hnum hname hl
      subst hq hname hl
      simp [msg, hnum, chunkRequest]

/-! ## The whole request -/

theorem In_ne_none {ps : GoMap Pool} {t : Ticket} (ha : t.attributes.isSome) {n : Str} {p : Pool}
    (hl : ps.load n = some p) : Filter.In (ps.load n) (some t) ≠ none := by
  obtain ⟨a, ha⟩ := Option.isSome_iff_exists.1 ha
  obtain ⟨b, hb, -⟩ := Filter.In_some p t a ha
  rw [hl, hb]; simp

/-- The chunks are the additions cut into segments. -/
theorem chunkedRequest_eq {p : Profile} (hwf : p.pools.WF) {ts : List Ticket} (ha : ∀ t ∈ ts, t.attributes.isSome)
    {work : List (Ticket × List Str)} (hw : WorkFor p ts work) :
    ∃ segs : List (List (Str × Ticket)), segs ≠ [] ∧ segs.flatten = additions p.pools work ∧
      (∀ s ∈ segs, SegOk Wire.sizeTicket (emptyChunkSize p) s) ∧
      segs.IsChain (NeededSplit Wire.sizeTicket (emptyChunkSize p)) ∧
      chunkedRequest p work = some ((segs.map toChunk).map (chunkRequest p segs.length)) := by
  have hfill := fill_eq (sz := Wire.sizeTicket) (empty := emptyChunkSize p) (ps := p.pools) work (by
    intro w hwm n hn
    have hv := (hw.2 w hwm).mem_iff.1 hn
    obtain ⟨q, hq, -⟩ := (mem_validPools hwf n).1 hv
    exact In_ne_none (ha w.1 (by rw [← hw.1]; exact List.mem_map_of_mem hwm)) hq)
  have hinv := foldl_inv (additions p.pools work) (flat_init Wire.sizeTicket (emptyChunkSize p))
  generalize hF : (additions p.pools work).foldl (flatAdd Wire.sizeTicket (emptyChunkSize p)) ⟨[], []⟩ = f at *
  refine ⟨f.segs, by simp [Flat.segs], by simpa using hinv.flat, hinv.ok, hinv.chain, ?_⟩
  unfold chunkedRequest
  rw [hfill]
  simp [Flat.st, ChunkSt.chunks, Flat.segs]

end OM
