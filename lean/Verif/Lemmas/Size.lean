import Verif.Lemmas.Wire
import Verif.Lemmas.Invoke
import Mathlib.Tactic.Linarith
/-! # Lemmas: encoded sizes -/
namespace OM.Wire
open OM.Spec

/-- Length of a varint. -/
def vl (n : Nat) : Nat := (varint n).length

theorem varintF_length_le (fuel k n : Nat) (h : n < 128 ^ (k + 1)) : (varintF fuel n).length ≤ k + 1 := by
  induction fuel generalizing n k with
  | zero => simp [varintF]
  | succ fuel ih =>
    unfold varintF
    split
    · simp
    · rename_i hn
      cases k with
      | zero => simp at h; omega
      | succ k =>
        have : n / 128 < 128 ^ (k + 1) := by
          rw [Nat.div_lt_iff_lt_mul (by decide)]; rw [pow_succ] at h; exact h
        simpa using ih k _ this

theorem vl_pos (n : Nat) : 1 ≤ vl n := List.length_pos_iff.2 (varint_ne_nil n)
theorem vl1 {n : Nat} (h : n < 128) : vl n = 1 := le_antisymm (varintF_length_le _ 0 n (by simpa using h)) (vl_pos n)
theorem vl2 {n : Nat} (h : n < 16384) : vl n ≤ 2 := varintF_length_le _ 1 n (by simpa using h)
theorem vl4 {n : Nat} (h : n < 268435456) : vl n ≤ 4 := varintF_length_le _ 3 n (by simpa using h)
theorem vl5 {n : Nat} (h : n < 34359738368) : vl n ≤ 5 := varintF_length_le _ 4 n (by simpa using h)

theorem ser_length_append (a b : List Field) : (ser (a ++ b)).length = (ser a).length + (ser b).length := by
  simp [ser]

@[simp] theorem ser_nil_length : (ser []).length = 0 := rfl

theorem ser_len1 (f : Nat) (s : Str) (hf : f < 15) : (ser [(f, .len s)]).length = 1 + vl s.length + s.length := by
  have : (varint (f * 8 + 2)).length = 1 := vl1 (by omega)
  simp [ser, encField, this, vl]; omega

theorem ser_var1 (f n : Nat) (hf : f < 15) : (ser [(f, .varint n)]).length = 1 + vl n := by
  have : (varint (f * 8)).length = 1 := vl1 (by omega)
  simp [ser, encField, this, vl]

theorem ser_cons_length (a : Field) (l : List Field) : (ser (a :: l)).length = (ser [a]).length + (ser l).length := by
  simp [ser]

/-- Total size of length-delimited fields. -/
theorem ser_repField (f : Nat) (hf : f < 15) (l : List Str) :
    (ser (repField f l)).length = (l.map fun s => 1 + vl s.length + s.length).sum := by
  induction l with
  | nil => rfl
  | cons s l ih =>
    have : repField f (s :: l) = (f, .len s) :: repField f l := rfl
    rw [this, ser_cons_length, ser_len1 f s hf, ih]; simp

theorem ser_strField_le (f : Nat) (hf : f < 15) (s : Str) : (ser (strField f s)).length ≤ 1 + vl s.length + s.length := by
  unfold strField; split
  · simp
  · rw [ser_len1 f s hf]

/-- The room one ticket takes inside a roster. -/
def slot (t : Ticket) : Nat := 1 + vl (sizeTicket t) + sizeTicket t

/-- The room of a list of tickets. -/
def slots (ts : List Ticket) : Nat := (ts.map slot).sum

theorem roster_size (name : Str) (ts : List Ticket) :
    (ser (rosterF ⟨name, none, ts, []⟩)).length = (ser (strField 1 name)).length + slots ts := by
  simp only [rosterF, ser_length_append, Option.map_none]
  have h1 : (ser (msgField 2 none)).length = 0 := rfl
  have h2 : (ser (extF 4 [])).length = 0 := rfl
  rw [h1, h2, ser_repField 3 (by omega)]
  simp [slots, Function.comp_def]
  rfl

theorem sentPool_size (name : Str) (ts : List Ticket) :
    let r := (ser (strField 1 (name ++ "_roster".toList))).length + slots ts
    (ser (poolF (sentPool name ts))).length = 1 + vl r + r := by
  intro r
  have hr : (ser (rosterF ⟨name ++ "_roster".toList, none, ts, []⟩)).length = r := roster_size _ _
  simp only [poolF, sentPool, ser_length_append, Option.map_some, Option.map_none, List.map_nil]
  have h1 : (ser (strField 1 [])).length = 0 := rfl
  have h2 : ∀ f, (ser (repField f [])).length = 0 := fun _ => rfl
  have h3 : (ser (msgField 5 none)).length = 0 := rfl
  have h4 : (ser (extF 7 [])).length = 0 := rfl
  have h5 : ∀ m, msgField 6 (some m) = [(6, .len (ser m))] := fun _ => rfl
  rw [h1, h2, h2, h2, h3, h4, h5, ser_len1 6 _ (by omega), hr]
  omega

/-- A pool entry takes at least the room of its tickets. -/
theorem entry_ge (name : Str) (ts : List Ticket) :
    slots ts ≤ (ser [(1, .len name), (2, WVal.len (ser (poolF (sentPool name ts))))]).length := by
  rw [ser_cons_length, ser_len1 2 _ (by omega)]
  have := sentPool_size name ts
  simp only at this
  omega

/-- A pool entry takes at most 37 bytes and twice its name more than its tickets. -/
theorem entry_le (name : Str) (ts : List Ticket) (h : 2 * name.length + slots ts < 268000000) :
    1 + vl (ser [(1, .len name), (2, WVal.len (ser (poolF (sentPool name ts))))]).length
      + (ser [(1, .len name), (2, WVal.len (ser (poolF (sentPool name ts))))]).length
      ≤ 37 + 2 * name.length + slots ts := by
  have hp := sentPool_size name ts
  simp only at hp
  have hn := ser_strField_le 1 (by omega) (name ++ "_roster".toList)
  have hl : (name ++ "_roster".toList).length = name.length + 7 := by simp
  rw [hl] at hn
  have v1 := vl4 (n := name.length + 7) (by omega)
  have v2 := vl4 (n := name.length) (by omega)
  generalize hs : (ser (strField 1 (name ++ "_roster".toList))).length = s at *
  have v3 := vl4 (n := s + slots ts) (by omega)
  rw [ser_cons_length, ser_len1 1 _ (by omega), ser_len1 2 _ (by omega), hp]
  have v4 := vl4 (n := 1 + vl (s + slots ts) + (s + slots ts)) (by omega)
  have v5 := vl5 (n := 1 + vl name.length + name.length + (1 + vl (1 + vl (s + slots ts) + (s + slots ts)) + (1 + vl (s + slots ts) + (s + slots ts)))) (by omega)
  omega

/-- Room of all tickets of a chunk. -/
def chunkSlots (c : Chunk) : Nat := (c.map fun e => slots e.2).sum

/-- Names with their fixed overhead. -/
def nameCost (ks : List Str) : Nat := (ks.map fun k => 37 + 2 * k.length).sum

def poolEntries (c : Chunk) : List Field :=
  mapField 2 (c.map fun e => (e.1, sentPool e.1 e.2)) (fun q => .len (ser (poolF q)))

theorem poolEntries_cons (e : Str × List Ticket) (c : Chunk) :
    poolEntries (e :: c) = (2, .len (ser [(1, .len e.1), (2, WVal.len (ser (poolF (sentPool e.1 e.2))))])) :: poolEntries c := rfl

theorem poolEntries_ge (c : Chunk) : chunkSlots c ≤ (ser (poolEntries c)).length := by
  induction c with
  | nil => simp [chunkSlots]
  | cons e c ih =>
    rw [poolEntries_cons, ser_cons_length, ser_len1 2 _ (by omega)]
    have := entry_ge e.1 e.2
    simp only [chunkSlots, List.map_cons, List.sum_cons] at ih ⊢
    omega

theorem poolEntries_le (c : Chunk) (h : nameCost c.keys + chunkSlots c < 268000000) :
    (ser (poolEntries c)).length ≤ nameCost c.keys + chunkSlots c := by
  induction c with
  | nil => simp [poolEntries, mapField]
  | cons e c ih =>
    rw [poolEntries_cons, ser_cons_length, ser_len1 2 _ (by omega)]
    simp only [chunkSlots, nameCost, GoMap.keys, List.map_cons, List.sum_cons] at ih h ⊢
    have h1 := ih (by omega)
    have h2 := entry_le e.1 e.2 (by omega)
    omega

theorem sizeChunk_ge (p : Profile) (n : Nat) (c : Chunk) : chunkSlots c ≤ sizeChunk (chunkRequest p n c) := by
  have h := poolEntries_ge c
  unfold sizeChunk chunkF chunkRequest
  simp only [Option.map_some]
  have h5 : ∀ m, msgField 1 (some m) = [(1, .len (ser m))] := fun _ => rfl
  rw [h5, ser_length_append, ser_len1 1 _ (by omega)]
  unfold profileF
  simp only [ser_length_append]
  unfold poolEntries at h
  omega

theorem intField_le (f n : Nat) (hf : f < 15) (h : n < 2 ^ 31) : (ser (intField f n)).length ≤ 6 := by
  unfold intField; split
  · simp
  · rw [ser_var1 f _ hf]
    have : enc64 (n : Int) = n := by unfold enc64; omega
    rw [this]
    have := vl5 (n := n) (by omega)
    omega

theorem sizeChunk_le (p : Profile) (n : Nat) (c : Chunk) (hn : n < 2 ^ 31)
    (h : emptyChunkSize p + nameCost c.keys + chunkSlots c < 268000000) :
    sizeChunk (chunkRequest p n c) ≤ emptyChunkSize p + 4 + nameCost c.keys + chunkSlots c := by
  have h1 := poolEntries_le c (by omega)
  have h5 : ∀ m, msgField 1 (some m) = [(1, .len (ser m))] := fun _ => rfl
  have he : (ser (strField 1 p.name)).length + (ser (extF 3 p.extensions)).length + 8 ≤ emptyChunkSize p := by
    unfold emptyChunkSize sizeChunk chunkF
    simp only [Option.map_some]
    rw [h5, ser_length_append, ser_len1 1 _ (by omega)]
    have : (ser (intField 2 2147483647)).length = 6 := by decide
    rw [this]
    have := vl_pos (ser (profileF p)).length
    have : (ser (strField 1 p.name)).length + (ser (extF 3 p.extensions)).length ≤ (ser (profileF p)).length := by
      unfold profileF
      simp only [ser_length_append]
      omega
    omega
  unfold sizeChunk chunkF chunkRequest
  simp only [Option.map_some]
  rw [h5, ser_length_append, ser_len1 1 _ (by omega)]
  have hi := intField_le 2 n (by omega) hn
  have hp : (ser (profileF ⟨p.name, c.map fun e => (e.1, sentPool e.1 e.2), p.extensions⟩)).length
      = (ser (strField 1 p.name)).length + (ser (poolEntries c)).length + (ser (extF 3 p.extensions)).length := by
    unfold profileF poolEntries
    simp only [ser_length_append]
  rw [hp]
  have := vl5 (n := (ser (strField 1 p.name)).length + (ser (poolEntries c)).length + (ser (extF 3 p.extensions)).length) (by omega)
  omega

/-! ## A chunk's tickets -/

theorem slots_append (a b : List Ticket) : slots (a ++ b) = slots a + slots b := by simp [slots]

theorem chunkSlots_delete {c : Chunk} (hwf : c.WF) (n : Str) :
    chunkSlots c = chunkSlots (c.delete n) + slots ((c.load n).getD []) := by
  induction c with
  | nil => simp [chunkSlots, slots, GoMap.delete]
  | cons e c ih =>
    have hwf' : GoMap.WF c := (List.nodup_cons.1 hwf).2
    have hne : e.1 ∉ GoMap.keys c := (List.nodup_cons.1 hwf).1
    rw [GoMap.load_cons]
    by_cases h : e.1 = n
    · subst h
      have : GoMap.delete c e.1 = c := by
        unfold GoMap.delete
        apply List.filter_eq_self.2
        intro x hx
        simp only [decide_eq_true_eq]
        intro hx'
        exact hne (by rw [← hx']; exact List.mem_map_of_mem hx)
      simp only [GoMap.delete, ne_eq, decide_not] at this
      simp [chunkSlots, GoMap.delete, this, Nat.add_comm]
    · have ih' := ih hwf'
      simp only [chunkSlots, GoMap.delete, List.map_cons, List.sum_cons] at ih' ⊢
      simp only [h, if_false]
      rw [List.filter_cons_of_pos (by simpa using h)]
      simp only [List.map_cons, List.sum_cons]
      omega

theorem chunkSlots_appendTo {c : Chunk} (hwf : c.WF) (n : Str) (t : Ticket) :
    chunkSlots (appendTo c n t) = chunkSlots c + slot t := by
  rw [chunkSlots_delete hwf n]
  unfold appendTo GoMap.store chunkSlots
  simp only [List.map_append, List.sum_append, List.map_cons, List.map_nil, List.sum_cons, List.sum_nil, slots_append]
  simp [slots]; omega

theorem chunkSlots_foldl (l : List (Str × Ticket)) (c : Chunk) (hwf : c.WF) :
    chunkSlots (l.foldl (fun c e => appendTo c e.1 e.2) c) = chunkSlots c + total slot l := by
  induction l generalizing c with
  | nil => simp [total]
  | cons e l ih =>
    rw [List.foldl_cons, ih _ (appendTo_WF hwf _ _), chunkSlots_appendTo hwf]
    simp [total]; omega

theorem chunkSlots_toChunk (l : List (Str × Ticket)) : chunkSlots (toChunk l) = total slot l := by
  unfold toChunk; rw [chunkSlots_foldl l [] GoMap.WF_nil]; simp [chunkSlots]

/-- A ticket of at least 64 bytes has at most one byte of framing per 32 of its own. -/
theorem slot_le {t : Ticket} (h1 : 64 ≤ sizeTicket t) (h2 : sizeTicket t < 4000000) :
    32 * slot t ≤ 33 * sizeTicket t := by
  unfold slot
  by_cases ha : sizeTicket t < 128
  · rw [vl1 ha]; omega
  · by_cases hb : sizeTicket t < 16384
    · have := vl2 hb; omega
    · have := vl4 (n := sizeTicket t) (by omega); omega

theorem total_slot_le (l : List (Str × Ticket)) (h : ∀ e ∈ l, 64 ≤ sizeTicket e.2 ∧ sizeTicket e.2 < 4000000) :
    32 * total slot l ≤ 33 * total sizeTicket l := by
  induction l with
  | nil => simp [total]
  | cons e l ih =>
    have h1 := ih (fun x hx => h x (by simp [hx]))
    have h2 := h e (by simp)
    have h3 := slot_le h2.1 h2.2
    simp only [total, List.map_cons, List.sum_cons] at h1 ⊢
    omega

/-! ## Matches -/

theorem vl10 {n : Nat} (h : n < 1180591620717411303424) : vl n ≤ 10 := varintF_length_le _ 9 n (by simpa using h)

theorem intField_le_any (f : Nat) (hf : f < 15) (v : Int) : (ser (intField f v)).length ≤ 11 := by
  unfold intField
  split
  · simp
  · rw [ser_var1 f _ hf]
    have h1 : enc64 v < 2 ^ 64 := by unfold enc64; omega
    have := vl10 (n := enc64 v) (by omega)
    omega

theorem timestamp_le (t : Timestamp) : (ser (timestampF t)).length ≤ 22 := by
  unfold timestampF
  rw [ser_length_append]
  have := intField_le_any 1 (by omega) t.seconds
  have := intField_le_any 2 (by omega) t.nanos
  omega

/-- One entry of a map of messages, and its room. -/
def entryRoom (k v : Nat) : Nat := 15 + k + v

theorem mapEntry_le (f : Nat) (hf : f < 15) (k v : Str) (h : k.length + v.length < 200000000) :
    (ser [(f, .len (ser [(1, .len k), (2, WVal.len v)]))]).length ≤ entryRoom k.length v.length := by
  unfold entryRoom
  rw [ser_len1 f _ hf, ser_cons_length, ser_len1 1 _ (by omega), ser_len1 2 _ (by omega)]
  have v1 := vl4 (n := k.length) (by omega)
  have v2 := vl4 (n := v.length) (by omega)
  have v3 := vl4 (n := 1 + vl k.length + k.length + (1 + vl v.length + v.length)) (by omega)
  omega

theorem mapEntry_ge (f : Nat) (hf : f < 15) (k v : Str) :
    v.length ≤ (ser [(f, .len (ser [(1, .len k), (2, WVal.len v)]))]).length := by
  rw [ser_len1 f _ hf, ser_cons_length, ser_len1 1 _ (by omega), ser_len1 2 _ (by omega)]
  omega

theorem mapField_cons {V : Type} (f : Nat) (e : Str × V) (m : GoMap V) (val : V → Str) :
    (ser (mapField f (e :: m) fun v => .len (val v))).length =
      (ser [(f, .len (ser [(1, .len e.1), (2, WVal.len (val e.2))]))]).length + (ser (mapField f m fun v => .len (val v))).length :=
  ser_cons_length _ _

theorem any_le (a : AnyPb) (h1 : a.typeUrl.length < 200000000) (h2 : a.value.length < 200000000) :
    (ser (anyF a)).length ≤ 10 + a.typeUrl.length + a.value.length := by
  unfold anyF
  rw [ser_length_append]
  have := ser_strField_le 1 (by omega) a.typeUrl
  have := ser_strField_le 2 (by omega) a.value
  have := vl4 (n := a.typeUrl.length) (by omega)
  have := vl4 (n := a.value.length) (by omega)
  omega

theorem extEntry_le (f : Nat) (hf : f < 15) (k : Str) (a : AnyPb) (h : k.length + a.typeUrl.length + a.value.length < 100000000) :
    (ser [(f, .len (ser [(1, .len k), (2, WVal.len (ser (anyF a)))]))]).length ≤ 25 + k.length + a.typeUrl.length + a.value.length := by
  have h1 := any_le a (by omega) (by omega)
  have h2 := mapEntry_le f hf k (ser (anyF a)) (by omega)
  unfold entryRoom at h2
  omega

end OM.Wire
