import Verif.Model.Wire
import Verif.Lemmas.Go
import Verif.Lemmas.Handlers
import Mathlib.Tactic.Ring
/-! # Lemmas: the wire format round-trips -/
namespace OM.Wire
open OM.Spec

theorem byte_toNat {n : Nat} (h : n < 256) : (byte n).toNat = n := by
  unfold byte
  have hv : n.isValidChar := Or.inl (by omega)
  rw [Char.ofNat, dif_pos hv]
  rfl

theorem getVarint_varintF (fuel n : Nat) (h : n < 128 ^ (fuel + 1)) (rest : Str) :
    getVarint (varintF fuel n ++ rest) = some (n, rest) := by
  induction fuel generalizing n with
  | zero =>
    have hn : n < 128 := by simpa using h
    simp [varintF, getVarint, Nat.mod_eq_of_lt hn, byte_toNat (show n < 256 by omega), hn]
  | succ fuel ih =>
    unfold varintF
    split
    · rename_i hn
      simp [getVarint, byte_toNat (show n < 256 by omega), hn]
    · rename_i hn
      have h2 : n / 128 < 128 ^ (fuel + 1) := by
        rw [Nat.div_lt_iff_lt_mul (by decide)]
        rw [pow_succ] at h; exact h
      rw [List.cons_append, getVarint, byte_toNat (by omega), if_neg (by omega), ih _ h2]
      simp only [Option.map_some, Option.some.injEq, Prod.mk.injEq, and_true]
      omega

theorem getVarint_varint (n : Nat) (rest : Str) : getVarint (varint n ++ rest) = some (n, rest) := by
  unfold varint
  apply getVarint_varintF
  have h1 : n < 2 ^ (n.log2 + 1) := Nat.lt_log2_self
  have h2 : 128 ^ (n.log2 / 7 + 1) = 2 ^ (7 * (n.log2 / 7 + 1)) := by rw [pow_mul]; norm_num
  rw [h2]
  exact Nat.lt_of_lt_of_le h1 (Nat.pow_le_pow_right (by decide) (by omega))

theorem leBytes_length (k n : Nat) : (leBytes k n).length = k := by
  induction k generalizing n with
  | zero => rfl
  | succ k ih => simp [leBytes, ih]

theorem fromLe_leBytes (k n : Nat) : fromLe (leBytes k n) = n % 256 ^ k := by
  induction k generalizing n with
  | zero => simp [leBytes, fromLe, Nat.mod_one]
  | succ k ih =>
    simp only [leBytes, fromLe, ih]
    rw [byte_toNat (Nat.mod_lt _ (by decide)), pow_succ, Nat.mul_comm (256 ^ k), Nat.mod_mul]

theorem varintF_ne_nil (f n : Nat) : varintF f n ≠ [] := by
  cases f <;> simp [varintF]; split <;> simp

theorem varint_ne_nil (n : Nat) : varint n ≠ [] := varintF_ne_nil _ _

theorem encField_ne_nil (f : Field) : encField f ≠ [] := by
  obtain ⟨n, v⟩ := f
  cases v <;> simp [encField, varint_ne_nil]

theorem getField_encField (f : Field) (rest : Str) : getField (encField f ++ rest) = some (f, rest) := by
  obtain ⟨n, v⟩ := f
  cases v with
  | varint m =>
    simp only [encField, getField, List.append_assoc, getVarint_varint]
    rw [if_pos (by omega)]
    simp only [Option.map_some, Option.some.injEq, Prod.mk.injEq, and_true]
    omega
  | fixed64 x =>
    simp only [encField, getField, List.append_assoc, getVarint_varint]
    rw [if_neg (by omega), if_pos (by omega)]
    have hl := leBytes_length 8 x.toNat
    rw [if_neg (by simp [hl])]
    have ht : (leBytes 8 x.toNat ++ rest).take 8 = leBytes 8 x.toNat := by
      rw [List.take_append_of_le_length (by omega), List.take_of_length_le (by omega)]
    have hd : (leBytes 8 x.toNat ++ rest).drop 8 = rest := by
      rw [List.drop_append_of_le_length (by omega), List.drop_of_length_le (by omega), List.nil_append]
    rw [ht, hd, fromLe_leBytes]
    have hx : BitVec.ofNat 64 (x.toNat % 256 ^ 8) = x := by
      rw [Nat.mod_eq_of_lt (by have := x.isLt; norm_num at this ⊢; exact this)]
      simp
    rw [hx]
    simp only [Option.some.injEq, Prod.mk.injEq, and_true]
    omega
  | fixed32 x =>
    simp only [encField, getField, List.append_assoc, getVarint_varint]
    rw [if_neg (by omega), if_neg (by omega), if_neg (by omega), if_pos (by omega)]
    have hl := leBytes_length 4 x.toNat
    rw [if_neg (by simp [hl])]
    have ht : (leBytes 4 x.toNat ++ rest).take 4 = leBytes 4 x.toNat := by
      rw [List.take_append_of_le_length (by omega), List.take_of_length_le (by omega)]
    have hd : (leBytes 4 x.toNat ++ rest).drop 4 = rest := by
      rw [List.drop_append_of_le_length (by omega), List.drop_of_length_le (by omega), List.nil_append]
    rw [ht, hd, fromLe_leBytes]
    have hx : BitVec.ofNat 32 (x.toNat % 256 ^ 4) = x := by
      rw [Nat.mod_eq_of_lt (by have := x.isLt; norm_num at this ⊢; exact this)]
      simp
    rw [hx]
    simp only [Option.some.injEq, Prod.mk.injEq, and_true]
    omega
  | len s =>
    simp only [encField, getField, List.append_assoc, getVarint_varint]
    rw [if_neg (by omega), if_neg (by omega), if_pos (by omega), if_neg (by simp)]
    rw [List.take_left, List.drop_left]
    simp only [Option.some.injEq, Prod.mk.injEq, and_true]
    omega

theorem parseF_ser (fs : List Field) (fuel : Nat) (h : fs.length ≤ fuel) : parseF fuel (ser fs) = fs := by
  induction fs generalizing fuel with
  | nil =>
    cases fuel with
    | zero => rfl
    | succ fuel => simp [parseF, ser, getField, getVarint]
  | cons f fs ih =>
    cases fuel with
    | zero => simp at h
    | succ fuel =>
      have : ser (f :: fs) = encField f ++ ser fs := by simp [ser]
      rw [this, parseF, getField_encField]
      simp [ih fuel (by simpa using h)]

theorem length_le_ser (fs : List Field) : fs.length ≤ (ser fs).length := by
  induction fs with
  | nil => simp
  | cons f fs ih =>
    have : ser (f :: fs) = encField f ++ ser fs := by simp [ser]
    rw [this, List.length_append, List.length_cons]
    have := List.length_pos_iff.2 (encField_ne_nil f)
    omega

/-- Parsing inverts serialisation. -/
theorem parse_ser (fs : List Field) : parse (ser fs) = fs := parseF_ser fs _ (length_le_ser fs)

/-! ## Field selection -/

theorem lens_append (f : Nat) (a b : List Field) : lens f (a ++ b) = lens f a ++ lens f b := by simp [lens]
theorem ints_append (f : Nat) (a b : List Field) : ints f (a ++ b) = ints f a ++ ints f b := by simp [ints]

theorem lens_repField (f g : Nat) (l : List Str) : lens f (repField g l) = if g = f then l else [] := by
  induction l with
  | nil => simp [repField, lens]
  | cons s l ih =>
    simp only [repField, lens] at ih ⊢
    by_cases h : g = f
    · simp [h] at ih ⊢
    · simp [h] at ih ⊢

theorem lens_strField (f g : Nat) (s : Str) :
    lens f (strField g s) = if g = f then (if s = [] then [] else [s]) else [] := by
  unfold strField lens
  by_cases h : g = f <;> by_cases hs : s = [] <;> simp [h, hs]

theorem lens_msgField (f g : Nat) (o : Option (List Field)) :
    lens f (msgField g o) = if g = f then o.toList.map ser else [] := by
  unfold msgField lens
  cases o <;> by_cases h : g = f <;> simp [h]

theorem lens_mapField {V : Type} (f g : Nat) (m : GoMap V) (val : V → WVal) :
    lens f (mapField g m val) = if g = f then m.map (fun e => ser [(1, .len e.1), (2, val e.2)]) else [] := by
  have : mapField g m val = repField g (m.map fun e => ser [(1, .len e.1), (2, val e.2)]) := by
    simp [mapField, repField]
  rw [this, lens_repField]

theorem lens_intField (f g : Nat) (v : Int) : lens f (intField g v) = [] := by
  unfold intField lens; split <;> simp

theorem ints_intField (f g : Nat) (v : Int) :
    ints f (intField g v) = if g = f then (if v = 0 then [] else [enc64 v]) else [] := by
  unfold intField ints
  by_cases h : g = f <;> by_cases hs : v = 0 <;> simp [h, hs]

theorem dec64_enc64 (v : Int) (h1 : -2 ^ 63 ≤ v) (h2 : v < 2 ^ 63) : dec64 (enc64 v) = v := by
  unfold dec64 enc64
  norm_num at h1 h2 ⊢
  split <;> omega

theorem dec32_enc64 (v : Int) (h1 : -2 ^ 31 ≤ v) (h2 : v < 2 ^ 31) : dec32 (enc64 v) = v := by
  unfold dec32 enc64
  norm_num at h1 h2 ⊢
  split <;> omega

theorem toTimestamp_timestampF {t : Timestamp} (h : tsOk t = true) : toTimestamp (timestampF t) = t := by
  obtain ⟨s, n⟩ := t
  simp only [tsOk, decide_eq_true_eq] at h
  obtain ⟨h1, h2, h3, h4⟩ := h
  simp only [toTimestamp, timestampF, getInt64, getInt32, ints_append, ints_intField]
  congr 1
  · by_cases hs : s = 0
    · simp [hs]
    · simp [hs, dec64_enc64 s h1 h2]
  · by_cases hn : n = 0
    · simp [hn]
    · simp [hn, dec32_enc64 n h3 h4]

/-! ## Maps -/

theorem foldl_store_wf {V : Type} (m acc : GoMap V) (h : (GoMap.keys (acc ++ m)).Nodup) :
    m.foldl (fun a e => a.store e.1 e.2) acc = acc ++ m := by
  induction m generalizing acc with
  | nil => simp
  | cons e m ih =>
    have hd : acc.delete e.1 = acc := by
      unfold GoMap.delete
      rw [List.filter_eq_self]
      intro x hx
      simp only [GoMap.keys, List.map_append, List.map_cons] at h
      have := (List.nodup_append.1 h).2.2 x.1 (List.mem_map_of_mem hx) e.1 (by simp)
      simpa using this
    rw [List.foldl_cons, GoMap.store, hd, ih]
    · simp
    · simpa [GoMap.keys] using h

theorem getMap_lens {V : Type} (f : Nat) (fs : List Field) (m : GoMap V) (val : V → WVal)
    (dec : List Field → V) (ok : V → Bool) (h : mapOk m ok = true)
    (hl : lens f fs = m.map (fun e => ser [(1, .len e.1), (2, val e.2)]))
    (hd : ∀ k v, ok v = true → dec [(1, .len k), (2, val v)] = v)
    (hk : ∀ k v, getStr 1 [(1, .len k), (2, val v)] = k) : getMap f fs dec = m := by
  simp only [mapOk, Bool.and_eq_true, decide_eq_true_eq, List.all_eq_true] at h
  unfold getMap
  rw [hl, List.foldl_map]
  simp only [parse_ser, hk]
  have : ∀ (m' acc : GoMap V), (∀ e ∈ m', ok e.2 = true) →
      m'.foldl (fun a (e : Str × V) => a.store e.1 (dec [(1, .len e.1), (2, val e.2)])) acc
        = m'.foldl (fun a e => a.store e.1 e.2) acc := by
    intro m'
    induction m' with
    | nil => intro acc _; rfl
    | cons e m' ih =>
      intro acc he
      simp only [List.foldl_cons]
      rw [hd _ _ (he e (by simp)), ih _ (fun x hx => he x (by simp [hx]))]
  rw [this m [] (fun e he => (h.2 e he).2), foldl_store_wf m [] (by simpa using h.1)]
  simp

theorem getStr1 (k : Str) (v : WVal) : getStr 1 [(1, .len k), (2, v)] = k := by
  cases v <;> simp [getStr, lens]

theorem toAny_anyF (a : AnyPb) : toAny (anyF a) = a := by
  obtain ⟨u, v⟩ := a
  simp only [toAny, anyF, getStr, lens_append, lens_strField]
  congr 1
  · by_cases h : u = [] <;> simp [h]
  · by_cases h : v = [] <;> simp [h]

theorem toExt_eq (f : Nat) (fs : List Field) (m : GoMap AnyPb) (h : mapOk m anyOk = true)
    (hl : lens f fs = m.map (fun e => ser [(1, .len e.1), (2, .len (ser (anyF e.2)))])) : toExt f fs = m := by
  unfold toExt
  refine getMap_lens f fs m (fun a => .len (ser (anyF a))) _ anyOk h hl ?_ (fun k v => getStr1 k _)
  intro k v _
  simp [getMsg, merge, lens, parse_ser, toAny_anyF]

theorem toData_dataF {d : FilterableData} (h : dataOk d = true) : toData (dataF d) = d := by
  obtain ⟨tags, sa, da, ct⟩ := d
  simp only [dataOk, Bool.and_eq_true] at h
  obtain ⟨⟨⟨-, hsa⟩, hda⟩, hct⟩ := h
  simp only [toData]
  congr 1
  · simp [dataF, lens_append, lens_repField, lens_mapField, lens_msgField]
  · refine getMap_lens 2 _ sa .len _ _ hsa ?_ ?_ (fun k v => getStr1 k _)
    · simp [dataF, lens_append, lens_repField, lens_mapField, lens_msgField]
    · intro k v _; simp [getStr, lens]
  · refine getMap_lens 3 _ da .fixed64 _ _ hda ?_ ?_ (fun k v => getStr1 k _)
    · simp [dataF, lens_append, lens_repField, lens_mapField, lens_msgField]
    · intro k v _; simp [dbls]
  · cases ct with
    | none => simp [getMsg, merge, dataF, lens_append, lens_repField, lens_mapField, lens_msgField]
    | some t =>
      simp [getMsg, merge, dataF, lens_append, lens_repField, lens_mapField, lens_msgField, parse_ser,
        toTimestamp_timestampF (t := t) (by simpa using hct)]

theorem toTicket_ticketF {t : Ticket} (h : ticketOk t = true) : toTicket (ticketF t) = t := by
  obtain ⟨id, ex, at', ext⟩ := t
  simp only [ticketOk, Bool.and_eq_true] at h
  obtain ⟨⟨⟨-, hex⟩, hat⟩, hext⟩ := h
  simp only [toTicket]
  congr 1
  · by_cases hi : id = [] <;>
      simp [getStr, ticketF, extF, lens_append, lens_strField, lens_mapField, lens_msgField, hi]
  · cases ex with
    | none => simp [getMsg, merge, ticketF, extF, lens_append, lens_strField, lens_mapField, lens_msgField]
    | some x =>
      simp [getMsg, merge, ticketF, extF, lens_append, lens_strField, lens_mapField, lens_msgField, parse_ser,
        toTimestamp_timestampF (t := x) (by simpa using hex)]
  · cases at' with
    | none => simp [getMsg, merge, ticketF, extF, lens_append, lens_strField, lens_mapField, lens_msgField]
    | some x =>
      simp [getMsg, merge, ticketF, extF, lens_append, lens_strField, lens_mapField, lens_msgField, parse_ser,
        toData_dataF (d := x) (by simpa using hat)]
  · refine toExt_eq 4 _ ext hext ?_
    simp [ticketF, extF, lens_append, lens_strField, lens_mapField, lens_msgField]

theorem toAssignment_assignmentF {a : Assignment} (h : assignmentOk a = true) :
    toAssignment (assignmentF a) = a := by
  obtain ⟨c, ext⟩ := a
  simp only [assignmentOk, Bool.and_eq_true] at h
  simp only [toAssignment]
  congr 1
  · by_cases hi : c = [] <;> simp [getStr, assignmentF, extF, lens_append, lens_strField, lens_mapField, hi]
  · refine toExt_eq 2 _ ext h.2 ?_
    simp [assignmentF, extF, lens_append, lens_strField, lens_mapField]

theorem codec_decT {t : Ticket} {b : Str} (h : codec.encT t = some b) : codec.decT b = t := by
  simp only [codec] at h ⊢
  split at h
  · injection h with h; subst h
    rename_i hok
    rw [parse_ser, toTicket_ticketF hok]
  · simp at h

theorem codec_decA {a : Assignment} {b : Str} (h : codec.encA a = some b) : codec.decA b = a := by
  simp only [codec] at h ⊢
  split at h
  · injection h with h; subst h
    rename_i hok
    rw [parse_ser, toAssignment_assignmentF hok]
  · simp at h

theorem sameOpt_refl {α : Type} {R : α → α → Prop} (h : ∀ a, R a a) (o : Option α) : SameOpt R o o := by
  cases o <;> simp [SameOpt, h]

theorem sameData_refl (d : FilterableData) : SameData d d := ⟨rfl, .refl _, .refl _, rfl⟩
theorem sameTicket_refl (t : Ticket) : SameTicket t t := ⟨rfl, rfl, sameOpt_refl sameData_refl _, .refl _⟩
theorem sameAssignment_refl (a : Assignment) : SameAssignment a a := ⟨rfl, .refl _⟩

/-- The concrete wire format satisfies the round-trip law. -/
theorem codec_lawful : codec.Lawful :=
  ⟨fun t b h => by rw [codec_decT h]; exact sameTicket_refl t,
   fun a b h => by rw [codec_decA h]; exact sameAssignment_refl a⟩

end OM.Wire
