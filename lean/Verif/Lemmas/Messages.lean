import Verif.Model.Messages
import Verif.Model.Mmf
import Verif.Lemmas.Invoke
import Verif.Lemmas.Wire
import Verif.Lemmas.Utf8
import Verif.Spec.Round
/-! # Lemmas: the messages between om-core and MMFs round-trip -/
namespace OM.Wire

theorem dbls_append (f : Nat) (a b : List Field) : dbls f (a ++ b) = dbls f a ++ dbls f b := by simp [dbls]

theorem ints_repField (f g : Nat) (l : List Str) : ints f (repField g l) = [] := by
  induction l with
  | nil => rfl
  | cons s l ih => simp [repField, ints]
theorem dbls_repField (f g : Nat) (l : List Str) : dbls f (repField g l) = [] := by
  induction l with
  | nil => rfl
  | cons s l ih => simp [repField, dbls]
theorem ints_strField (f g : Nat) (s : Str) : ints f (strField g s) = [] := by unfold strField ints; split <;> simp
theorem dbls_strField (f g : Nat) (s : Str) : dbls f (strField g s) = [] := by unfold strField dbls; split <;> simp
theorem ints_msgField (f g : Nat) (o : Option (List Field)) : ints f (msgField g o) = [] := by
  unfold msgField ints; cases o <;> simp
theorem dbls_intField (f g : Nat) (v : Int) : dbls f (intField g v) = [] := by unfold intField dbls; split <;> simp
theorem lens_dblField (f g : Nat) (x : F64) : lens f (dblField g x) = [] := by unfold dblField lens; split <;> simp
theorem ints_dblField (f g : Nat) (x : F64) : ints f (dblField g x) = [] := by unfold dblField ints; split <;> simp
theorem dbls_dblField (f g : Nat) (x : F64) :
    dbls f (dblField g x) = if g = f then (if x = 0 then [] else [x]) else [] := by
  unfold dblField dbls
  by_cases hs : x = 0
  · rw [if_pos hs, if_pos hs]; simp
  · rw [if_neg hs, if_neg hs]; by_cases h : g = f <;> simp [h]

theorem opt_str (s : Str) : (if s = [] then [] else [s]).getLast?.getD [] = s := by by_cases h : s = [] <;> simp [h]
theorem opt_dbl (x : F64) : (if x = 0 then [] else [x]).getLast?.getD 0 = x := by
  by_cases h : x = 0
  · rw [if_pos h, h]; rfl
  · rw [if_neg h]; rfl
theorem opt_int32 {v : Int} (h : int32Ok v = true) :
    ((if v = 0 then [] else [enc64 v]).getLast?.map dec32).getD 0 = v := by
  simp only [int32Ok, decide_eq_true_eq] at h
  by_cases hv : v = 0
  · simp [hv]
  · simp [hv, dec32_enc64 v h.1 h.2]

theorem opt_msg {α : Type} (o : Option α) (enc : α → List Field) (dec : List Field → α) (ok : α → Bool)
    (ho : o.all ok = true) (hd : ∀ a, ok a = true → dec (enc a) = a) :
    (merge ((o.map enc).toList.map ser)).map dec = o := by
  cases o with
  | none => rfl
  | some a => simp [merge, parse_ser, hd a (by simpa using ho)]

theorem rep_msg {α : Type} (l : List α) (enc : α → List Field) (dec : List Field → α) (ok : α → Bool)
    (ho : l.all ok = true) (hd : ∀ a, ok a = true → dec (enc a) = a) :
    (l.map fun a => ser (enc a)).map (fun s => dec (parse s)) = l := by
  rw [List.map_map]
  conv => rhs; rw [← List.map_id l]
  apply List.map_congr_left
  intro a ha
  simp [parse_ser, hd a (List.all_eq_true.1 ho a ha)]

theorem getMsgMap_eq {V : Type} (f : Nat) (fs : List Field) (m : GoMap V) (enc : V → List Field) (dec : List Field → V)
    (ok : V → Bool) (h : mapOk m ok = true)
    (hl : lens f fs = m.map (fun e => ser [(1, .len e.1), (2, .len (ser (enc e.2)))]))
    (hd : ∀ v, ok v = true → dec (enc v) = v) : getMsgMap f fs dec = m := by
  unfold getMsgMap
  refine getMap_lens f fs m (fun v => .len (ser (enc v))) _ ok h hl ?_ (fun k v => getStr1 k _)
  intro k v hv
  simp [getMsg, merge, lens, parse_ser, hd v hv]

theorem toTagFilter_ok (f : TagPresentFilter) : toTagFilter (tagFilterF f) = f := by
  obtain ⟨t⟩ := f
  simp [toTagFilter, tagFilterF, getStr, lens_strField, opt_str]

theorem toStrFilter_ok (f : StringEqualsFilter) : toStrFilter (strFilterF f) = f := by
  obtain ⟨a, v⟩ := f
  simp [toStrFilter, strFilterF, getStr, lens_append, lens_strField, opt_str]

theorem toDblFilter_ok {f : DoubleRangeFilter} (h : dblFilterOk f = true) : toDblFilter (dblFilterF f) = f := by
  obtain ⟨a, x, y, b⟩ := f
  simp only [dblFilterOk, Bool.and_eq_true] at h
  have h1 : lens 1 (dblFilterF ⟨a, x, y, b⟩) = if a = [] then [] else [a] := by
    simp [dblFilterF, lens_append, lens_strField, lens_dblField, lens_intField]
  have h2 : dbls 2 (dblFilterF ⟨a, x, y, b⟩) = if x = 0 then [] else [x] := by
    simp [dblFilterF, dbls_append, dbls_strField, dbls_dblField, dbls_intField]
  have h3 : dbls 3 (dblFilterF ⟨a, x, y, b⟩) = if y = 0 then [] else [y] := by
    simp [dblFilterF, dbls_append, dbls_strField, dbls_dblField, dbls_intField]
  have h4 : ints 4 (dblFilterF ⟨a, x, y, b⟩) = if b = 0 then [] else [enc64 b] := by
    simp [dblFilterF, ints_append, ints_strField, ints_dblField, ints_intField]
  rw [toDblFilter, getStr, getDbl, getDbl, getInt32, h1, h2, h3, h4, opt_str, opt_dbl, opt_dbl, opt_int32 h.2]

theorem toCtFilter_ok {f : CreationTimeRangeFilter} (h : ctFilterOk f = true) : toCtFilter (ctFilterF f) = f := by
  obtain ⟨s, e, b⟩ := f
  simp only [ctFilterOk, Bool.and_eq_true] at h
  have h1 : lens 6 (ctFilterF ⟨s, e, b⟩) = (s.map timestampF).toList.map ser := by
    simp [ctFilterF, lens_append, lens_msgField, lens_intField]
  have h2 : lens 7 (ctFilterF ⟨s, e, b⟩) = (e.map timestampF).toList.map ser := by
    simp [ctFilterF, lens_append, lens_msgField, lens_intField]
  have h3 : ints 4 (ctFilterF ⟨s, e, b⟩) = if b = 0 then [] else [enc64 b] := by
    simp [ctFilterF, ints_append, ints_msgField, ints_intField]
  rw [toCtFilter, getMsg, getMsg, getInt32, h1, h2, h3, opt_int32 h.2,
    opt_msg s timestampF toTimestamp tsOk h.1.1 fun _ => toTimestamp_timestampF,
    opt_msg e timestampF toTimestamp tsOk h.1.2 fun _ => toTimestamp_timestampF]

theorem toRoster_ok {r : Roster} (h : rosterOk r = true) : toRoster (rosterF r) = r := by
  obtain ⟨n, a, ts, ext⟩ := r
  simp only [rosterOk, Bool.and_eq_true] at h
  obtain ⟨⟨⟨-, ha⟩, hts⟩, hext⟩ := h
  have h1 : lens 1 (rosterF ⟨n, a, ts, ext⟩) = if n = [] then [] else [n] := by
    simp [rosterF, extF, lens_append, lens_strField, lens_msgField, lens_repField, lens_mapField]
  have h2 : lens 2 (rosterF ⟨n, a, ts, ext⟩) = (a.map assignmentF).toList.map ser := by
    simp [rosterF, extF, lens_append, lens_strField, lens_msgField, lens_repField, lens_mapField]
  have h3 : lens 3 (rosterF ⟨n, a, ts, ext⟩) = ts.map fun t => ser (ticketF t) := by
    simp [rosterF, extF, lens_append, lens_strField, lens_msgField, lens_repField, lens_mapField]
  have h4 : lens 4 (rosterF ⟨n, a, ts, ext⟩) = ext.map (fun e => ser [(1, .len e.1), (2, .len (ser (anyF e.2)))]) := by
    simp [rosterF, extF, lens_append, lens_strField, lens_msgField, lens_repField, lens_mapField]
  simp only [toRoster, getStr, getMsg, getMsgs, h1, h2, h3, opt_str, toExt_eq 4 _ ext hext h4,
    opt_msg a assignmentF toAssignment assignmentOk ha fun _ => toAssignment_assignmentF,
    rep_msg ts ticketF toTicket ticketOk hts fun _ => toTicket_ticketF]

theorem toPool_ok {p : Pool} (h : poolOk p = true) : toPool (poolF p) = p := by
  obtain ⟨n, tf, sf, df, ct, r, ext⟩ := p
  simp only [poolOk, Bool.and_eq_true] at h
  obtain ⟨⟨⟨⟨⟨⟨-, -⟩, -⟩, hdf⟩, hct⟩, hr⟩, hext⟩ := h
  have h1 : lens 1 (poolF ⟨n, tf, sf, df, ct, r, ext⟩) = if n = [] then [] else [n] := by
    simp [poolF, extF, lens_append, lens_strField, lens_msgField, lens_repField, lens_mapField]
  have h2 : lens 2 (poolF ⟨n, tf, sf, df, ct, r, ext⟩) = tf.map fun f => ser (tagFilterF f) := by
    simp [poolF, extF, lens_append, lens_strField, lens_msgField, lens_repField, lens_mapField]
  have h3 : lens 3 (poolF ⟨n, tf, sf, df, ct, r, ext⟩) = sf.map fun f => ser (strFilterF f) := by
    simp [poolF, extF, lens_append, lens_strField, lens_msgField, lens_repField, lens_mapField]
  have h4 : lens 4 (poolF ⟨n, tf, sf, df, ct, r, ext⟩) = df.map fun f => ser (dblFilterF f) := by
    simp [poolF, extF, lens_append, lens_strField, lens_msgField, lens_repField, lens_mapField]
  have h5 : lens 5 (poolF ⟨n, tf, sf, df, ct, r, ext⟩) = (ct.map ctFilterF).toList.map ser := by
    simp [poolF, extF, lens_append, lens_strField, lens_msgField, lens_repField, lens_mapField]
  have h6 : lens 6 (poolF ⟨n, tf, sf, df, ct, r, ext⟩) = (r.map rosterF).toList.map ser := by
    simp [poolF, extF, lens_append, lens_strField, lens_msgField, lens_repField, lens_mapField]
  have h7 : lens 7 (poolF ⟨n, tf, sf, df, ct, r, ext⟩) = ext.map (fun e => ser [(1, .len e.1), (2, .len (ser (anyF e.2)))]) := by
    simp [poolF, extF, lens_append, lens_strField, lens_msgField, lens_repField, lens_mapField]
  simp only [toPool, getStr, getMsg, getMsgs, h1, h2, h3, h4, h5, h6, opt_str, toExt_eq 7 _ ext hext h7,
    rep_msg tf tagFilterF toTagFilter (fun _ => true) (by simp) fun _ _ => toTagFilter_ok _,
    rep_msg sf strFilterF toStrFilter (fun _ => true) (by simp) fun _ _ => toStrFilter_ok _,
    rep_msg df dblFilterF toDblFilter dblFilterOk hdf fun _ => toDblFilter_ok,
    opt_msg ct ctFilterF toCtFilter ctFilterOk hct fun _ => toCtFilter_ok,
    opt_msg r rosterF toRoster rosterOk hr fun _ => toRoster_ok]

theorem toProfile_ok {p : Profile} (h : profileOk p = true) : toProfile (profileF p) = p := by
  obtain ⟨n, ps, ext⟩ := p
  simp only [profileOk, Bool.and_eq_true] at h
  obtain ⟨⟨-, hps⟩, hext⟩ := h
  have h1 : lens 1 (profileF ⟨n, ps, ext⟩) = if n = [] then [] else [n] := by
    simp [profileF, extF, lens_append, lens_strField, lens_mapField]
  have h2 : lens 2 (profileF ⟨n, ps, ext⟩) = ps.map (fun e => ser [(1, .len e.1), (2, .len (ser (poolF e.2)))]) := by
    simp [profileF, extF, lens_append, lens_strField, lens_mapField]
  have h3 : lens 3 (profileF ⟨n, ps, ext⟩) = ext.map (fun e => ser [(1, .len e.1), (2, .len (ser (anyF e.2)))]) := by
    simp [profileF, extF, lens_append, lens_strField, lens_mapField]
  simp only [toProfile, getStr, h1, opt_str, toExt_eq 3 _ ext hext h3,
    getMsgMap_eq 2 _ ps poolF toPool poolOk hps h2 fun _ => toPool_ok]

theorem toChunkMsg_ok {c : ChunkedMmfRunRequest} (h : chunkOk c = true) : toChunkMsg (chunkF c) = c := by
  obtain ⟨p, n⟩ := c
  simp only [chunkOk, Bool.and_eq_true] at h
  have h1 : lens 1 (chunkF ⟨p, n⟩) = (p.map profileF).toList.map ser := by
    simp [chunkF, lens_append, lens_msgField, lens_intField]
  have h2 : ints 2 (chunkF ⟨p, n⟩) = if n = 0 then [] else [enc64 n] := by
    simp [chunkF, ints_append, ints_msgField, ints_intField]
  simp only [toChunkMsg, getMsg, getInt32, h1, h2, opt_int32 h.2,
    opt_msg p profileF toProfile profileOk h.1 fun _ => toProfile_ok]

theorem toMatch_ok {m : Match} (h : matchOk m = true) : toMatch (matchF m) = m := by
  obtain ⟨n, rs, ext⟩ := m
  simp only [matchOk, Bool.and_eq_true] at h
  obtain ⟨⟨-, hrs⟩, hext⟩ := h
  have h1 : lens 1 (matchF ⟨n, rs, ext⟩) = if n = [] then [] else [n] := by
    simp [matchF, extF, lens_append, lens_strField, lens_mapField]
  have h2 : lens 2 (matchF ⟨n, rs, ext⟩) = rs.map (fun e => ser [(1, .len e.1), (2, .len (ser (rosterF e.2)))]) := by
    simp [matchF, extF, lens_append, lens_strField, lens_mapField]
  have h3 : lens 3 (matchF ⟨n, rs, ext⟩) = ext.map (fun e => ser [(1, .len e.1), (2, .len (ser (anyF e.2)))]) := by
    simp [matchF, extF, lens_append, lens_strField, lens_mapField]
  simp only [toMatch, getStr, h1, opt_str, toExt_eq 3 _ ext hext h3,
    getMsgMap_eq 2 _ rs rosterF toRoster rosterOk hrs h2 fun _ => toRoster_ok]

theorem decChunk_encChunk {c : ChunkedMmfRunRequest} {b : Str} (h : encChunk c = some b) : decChunk b = c := by
  unfold encChunk at h
  split at h
  · injection h with h; subst h
    rename_i hok
    rw [decChunk, parse_ser, toChunkMsg_ok hok]
  · simp at h

theorem decResponse_encResponse {o : Option Match} {b : Str} (h : encResponse o = some b) : decResponse b = o := by
  unfold encResponse at h
  split at h
  · injection h with h; subst h
    rename_i hok
    rw [decResponse, parse_ser, toResponse, responseF, getMsg, lens_msgField, if_pos rfl,
      opt_msg o matchF toMatch matchOk hok fun _ => toMatch_ok]
  · simp at h

/-! ## UTF-8 -/

theorem utf8Valid_digits {s : Str} (h : ∀ c ∈ s, c.isDigit = true) : utf8Valid s = true := by
  refine utf8Valid_ascii fun c hc => ?_
  have := h c hc
  simp only [Char.isDigit, Bool.and_eq_true, decide_eq_true_eq, UInt32.le_iff_toNat_le] at this
  have h9 : c.val.toNat ≤ 57 := this.2
  show c.val.toNat < 128
  omega

theorem utf8Valid_fmtNat (n : Nat) : utf8Valid (fmtNat n) = true := utf8Valid_digits fun _ => isDigit_fmtNat

theorem utf8Valid_fmtNatPad (w n : Nat) : utf8Valid (fmtNatPad w n) = true := by
  refine utf8Valid_append (utf8Valid_digits fun c hc => ?_) (utf8Valid_fmtNat n)
  rw [(List.mem_replicate.1 hc).2]; decide

theorem utf8Valid_fmtInt (n : Int) : utf8Valid (fmtInt n) = true := by
  unfold fmtInt
  split
  · exact utf8Valid_fmtNat _
  · exact utf8Valid_cons (by decide) (utf8Valid_fmtNat _)

theorem utf8Valid_fmtReplId (t : Int) (n : Nat) : utf8Valid (fmtReplId t n) = true :=
  utf8Valid_append (utf8Valid_fmtInt t) (utf8Valid_cons (by decide) (utf8Valid_fmtNat n))

/-! ## Bytes -/

theorem utf8Step_byte {st : Nat × Nat × Nat} (hst : st.2.2 < 256) {c : Char} {x : Nat × Nat × Nat}
    (h : utf8Step (some st) c = some x) : c.toNat < 256 ∧ x.2.2 < 256 := by
  obtain ⟨k, lo, hi⟩ := st
  cases k with
  | zero =>
    simp only [utf8Step] at h
    repeat' split at h
    all_goals first | (cases h; exact ⟨by omega, by simp⟩) | cases h
  | succ k =>
    simp only [utf8Step] at h
    dsimp only at hst
    repeat' split at h
    all_goals first | (cases h; exact ⟨by omega, by simp⟩) | cases h

theorem bytesOk_of_utf8 {s : Str} (h : utf8Valid s = true) : bytesOk s = true := by
  have : ∀ (l : Str) (st : Nat × Nat × Nat), st.2.2 < 256 → (l.foldl utf8Step (some st)).isSome → bytesOk l = true := by
    intro l
    induction l with
    | nil => intros; rfl
    | cons c l ih =>
      intro st hst hl
      rw [List.foldl_cons] at hl
      match hx : utf8Step (some st) c with
      | none => rw [hx, utf8Step_none] at hl; cases hl
      | some x =>
        rw [hx] at hl
        obtain ⟨h1, h2⟩ := utf8Step_byte hst hx
        have := ih x h2 hl
        simp only [bytesOk, List.all_cons, Bool.and_eq_true, decide_eq_true_eq] at this ⊢
        exact ⟨h1, this⟩
  refine this s (0, 0, 0) (by simp) ?_
  unfold utf8Valid at h
  split at h
  · rename_i e; rw [e]; rfl
  · cases h

theorem bytesOk_append {a b : Str} (ha : bytesOk a = true) (hb : bytesOk b = true) : bytesOk (a ++ b) = true := by
  simp only [bytesOk, List.all_append, Bool.and_eq_true] at *; exact ⟨ha, hb⟩

theorem byte_lt {n : Nat} (h : n < 256) : bytesOk [byte n] = true := by
  simp only [bytesOk, List.all_cons, List.all_nil, Bool.and_true, decide_eq_true_eq]
  rw [byte_toNat h]; exact h

theorem bytesOk_varintF (f n : Nat) : bytesOk (varintF f n) = true := by
  induction f generalizing n with
  | zero => exact byte_lt (by omega)
  | succ f ih =>
    unfold varintF
    split
    · exact byte_lt (by omega)
    · exact bytesOk_append (a := [_]) (byte_lt (by omega)) (ih _)

theorem bytesOk_leBytes (k n : Nat) : bytesOk (leBytes k n) = true := by
  induction k generalizing n with
  | zero => rfl
  | succ k ih => exact bytesOk_append (a := [_]) (byte_lt (by omega)) (ih _)

theorem bytesOk_ser {fs : List Field} (h : ∀ f s, (f, WVal.len s) ∈ fs → bytesOk s = true) : bytesOk (ser fs) = true := by
  induction fs with
  | nil => rfl
  | cons f fs ih =>
    refine bytesOk_append ?_ (ih fun g s hg => h g s (List.mem_cons_of_mem _ hg))
    match f with
    | (_, .varint n) => exact bytesOk_append (bytesOk_varintF _ _) (bytesOk_varintF _ _)
    | (_, .fixed64 x) => exact bytesOk_append (bytesOk_varintF _ _) (bytesOk_leBytes _ _)
    | (_, .fixed32 x) => exact bytesOk_append (bytesOk_varintF _ _) (bytesOk_leBytes _ _)
    | (g, .len s) =>
      exact bytesOk_append (bytesOk_varintF _ _) (bytesOk_append (bytesOk_varintF _ _) (h g s (List.mem_cons_self ..)))

/-! ## Maps -/

theorem mapOk_iff {V : Type} {m : GoMap V} {ok : V → Bool} :
    mapOk m ok = true ↔ m.WF ∧ ∀ e ∈ m, utf8Valid e.1 = true ∧ ok e.2 = true := by
  simp only [mapOk, Bool.and_eq_true, decide_eq_true_eq, List.all_eq_true]; rfl

theorem mapOk_perm {V : Type} {m m' : GoMap V} {ok : V → Bool} (h : mapOk m ok = true) (hp : m'.Perm m) : mapOk m' ok = true := by
  rw [mapOk_iff] at h ⊢
  exact ⟨GoMap.WF_perm hp.symm h.1, fun e he => h.2 e (hp.mem_iff.1 he)⟩

theorem mapOk_store {V : Type} {m : GoMap V} {ok : V → Bool} (h : mapOk m ok = true) {k : Str} {v : V}
    (hk : utf8Valid k = true) (hv : ok v = true) : mapOk (m.store k v) ok = true := by
  rw [mapOk_iff] at h ⊢
  refine ⟨GoMap.WF_store h.1 k v, fun e he => ?_⟩
  rcases List.mem_append.1 he with he | he
  · exact h.2 e (List.mem_filter.1 he).1
  · rw [List.mem_singleton.1 he]; exact ⟨hk, hv⟩

theorem mapOk_load {V : Type} {m : GoMap V} {ok : V → Bool} (h : mapOk m ok = true) {k : Str} {v : V}
    (hl : m.load k = some v) : utf8Valid k = true ∧ ok v = true := (mapOk_iff.1 h).2 _ (GoMap.mem_of_load hl)

/-! ## Requests -/

theorem toChunk_ok : ∀ (l : List (Str × Ticket)) (c : Chunk), mapOk c (fun ts => ts.all ticketOk) = true →
    (∀ e ∈ l, utf8Valid e.1 = true ∧ ticketOk e.2 = true) →
    mapOk (l.foldl (fun c e => appendTo c e.1 e.2) c) (fun ts => ts.all ticketOk) = true
  | [], _, h, _ => h
  | e :: l, c, h, he => by
    refine toChunk_ok l _ (mapOk_store h (he e (List.mem_cons_self ..)).1 ?_) fun x hx => he x (List.mem_cons_of_mem _ hx)
    rw [List.all_append, Bool.and_eq_true]
    refine ⟨?_, by simp [(he e (List.mem_cons_self ..)).2]⟩
    cases hl : c.load e.1 with
    | none => rfl
    | some v => exact (mapOk_load h hl).2

theorem chunkRequest_ok {p : Profile} (hp : profileOk p = true) {n : Nat} (hn : n < 2 ^ 31) {c : Chunk}
    (hc : mapOk c (fun ts => ts.all ticketOk) = true) : chunkOk (chunkRequest p n c) = true := by
  simp only [profileOk, Bool.and_eq_true] at hp
  obtain ⟨hw, hc⟩ := mapOk_iff.1 hc
  have hk : (c.map fun e => (e.1, sentPool e.1 e.2)).map Prod.fst = c.map Prod.fst := by simp
  have : mapOk (c.map fun e => (e.1, sentPool e.1 e.2)) poolOk = true := by
    refine mapOk_iff.2 ⟨?_, fun e he => ?_⟩
    · unfold GoMap.WF GoMap.keys
      rw [hk]; exact hw
    · obtain ⟨e', he', rfl⟩ := List.mem_map.1 he
      refine ⟨(hc e' he').1, ?_⟩
      have hr : utf8Valid (e'.1 ++ "_roster".toList) = true := utf8Valid_append (hc e' he').1 (by decide)
      simp only [poolOk, sentPool, rosterOk, Option.all_some, Option.all_none, List.all_nil, hr, (hc e' he').2]
      decide
  simp only [chunkOk, chunkRequest, Option.all_some, profileOk, hp.1.1, this, hp.2, Bool.true_and, int32Ok]
  exact decide_eq_true ⟨by omega, by omega⟩

/-- What om-core sends for a valid profile and valid tickets can be marshalled. -/
theorem chunkedRequest_ok {p : Profile} (hp : profileOk p = true) {ts : List Ticket} (ha : ∀ t ∈ ts, t.attributes.isSome)
    (ht : ∀ t ∈ ts, ticketOk t = true) {work : List (Ticket × List Str)} (hw : WorkFor p ts work)
    {sent : List ChunkedMmfRunRequest} (hs : chunkedRequest p work = some sent) (hl : sent.length < 2 ^ 31) :
    ∀ c ∈ sent, chunkOk c = true := by
  have hpp := hp
  simp only [profileOk, Bool.and_eq_true] at hpp
  obtain ⟨hwf, hpools⟩ := mapOk_iff.1 hpp.1.2
  obtain ⟨segs, -, h2, -, -, h5⟩ := chunkedRequest_eq hwf ha hw
  obtain rfl := Option.some.inj (h5.symm.trans hs)
  intro c hc
  simp only [List.length_map] at hl
  simp only [List.mem_map] at hc
  obtain ⟨_, ⟨seg, hseg, rfl⟩, rfl⟩ := hc
  refine chunkRequest_ok hp hl (toChunk_ok seg [] (by decide) fun e he => ?_)
  have : e ∈ additions p.pools work := by rw [← h2]; exact List.mem_flatten.2 ⟨seg, hseg, he⟩
  obtain ⟨w, hwm, he⟩ := List.mem_flatMap.1 this
  obtain ⟨n, hn, rfl⟩ := List.mem_map.1 he
  have hn := (List.mem_filter.1 hn).1
  obtain ⟨q, hq, -⟩ := (mem_validPools hwf n).1 ((hw.2 w hwm).mem_iff.1 hn)
  exact ⟨(hpools _ (GoMap.mem_of_load hq)).1, ht _ (by rw [← hw.1]; exact List.mem_map_of_mem hwm)⟩

theorem chunkOk_received {c c' : ChunkedMmfRunRequest} (h : chunkOk c = true) (hr : Spec.Received c c') : chunkOk c' = true := by
  obtain ⟨q, p, h1, h2, h3, h4, h5, h6⟩ := hr
  simp only [chunkOk, h1, Option.all_some, Bool.and_eq_true, profileOk] at h
  simp only [chunkOk, h2, Option.all_some, Bool.and_eq_true, profileOk, h3, h4]
  exact ⟨⟨⟨h.1.1.1, mapOk_perm h.1.1.2 h6⟩, mapOk_perm h.1.2 h5⟩, h.2⟩

/-! ## The request as an MMF has it -/

theorem mergePool_ok {acc acc' : GoMap Pool} {e : Str × Pool} (h : mergePool acc e = some acc') (ha : mapOk acc poolOk = true)
    (he : utf8Valid e.1 = true ∧ poolOk e.2 = true) : mapOk acc' poolOk = true := by
  unfold mergePool at h
  split at h
  · cases h; exact mapOk_store ha he.1 he.2
  · rename_i q hq
    split at h
    · cases h
    · rename_i r hr
      cases h
      refine mapOk_store ha he.1 ?_
      have h1 := (mapOk_load ha hq).2
      have h2 := he.2
      simp only [poolOk, hr, Option.all_some, rosterOk, Bool.and_eq_true] at h1
      simp only [poolOk, Option.all_some, rosterOk, Bool.and_eq_true, List.all_append]
      refine ⟨⟨h1.1.1, ⟨⟨h1.1.2.1.1, h1.1.2.1.2, ?_⟩, h1.1.2.2⟩⟩, h1.2⟩
      cases hp : e.2.participants with
      | none => rfl
      | some r' =>
        simp only [poolOk, hp, Option.all_some, rosterOk, Bool.and_eq_true] at h2
        exact h2.1.2.1.2

theorem mergePools_ok : ∀ (l : GoMap Pool) {acc acc' : GoMap Pool}, l.foldlM mergePool acc = some acc' → mapOk acc poolOk = true →
    (∀ e ∈ l, utf8Valid e.1 = true ∧ poolOk e.2 = true) → mapOk acc' poolOk = true
  | [], _, _, h, ha, _ => by cases h; exact ha
  | e :: l, acc, acc', h, ha, he => by
    rw [List.foldlM_cons] at h
    obtain ⟨a, h1, h2⟩ := Option.bind_eq_some_iff.1 h
    exact mergePools_ok l h2 (mergePool_ok h1 ha (he e (List.mem_cons_self ..))) fun x hx => he x (List.mem_cons_of_mem _ hx)

theorem getChunks_ok' : ∀ (msgs : List ChunkedMmfRunRequest) (i : Nat) (pools : GoMap Pool) (q : Profile)
    (rest : List ChunkedMmfRunRequest), mapOk pools poolOk = true → (∀ m ∈ msgs, chunkOk m = true) →
    getChunks i pools msgs = some (.profile (some q), rest) → profileOk q = true
  | [], i, pools, q, rest, _, _, h => by
    unfold getChunks at h
    split at h <;> simp at h
  | m :: msgs, i, pools, q, rest, hp, hm, h => by
    unfold getChunks at h
    split at h
    · simp at h
    · dsimp only at h
      have hmo := hm m (List.mem_cons_self ..)
      have hprof : utf8Valid ((m.profile.map (·.name)).getD []) = true ∧
          mapOk ((m.profile.map (·.pools)).getD []) poolOk = true ∧ mapOk ((m.profile.map (·.extensions)).getD []) anyOk = true := by
        cases hpr : m.profile with
        | none => simp only [Option.map_none, Option.getD_none]; decide
        | some p =>
          simp only [chunkOk, hpr, Option.all_some, profileOk, Bool.and_eq_true] at hmo
          exact ⟨hmo.1.1.1, hmo.1.1.2, hmo.1.2⟩
      split at h
      · cases h
      · rename_i pools' hp'
        have hw' := mergePools_ok _ hp' hp fun e he => (mapOk_iff.1 hprof.2.1).2 e he
        split at h
        · cases h
          simp only [profileOk, hprof.1, hw', hprof.2.2, Bool.and_self]
        · exact getChunks_ok' msgs (i + 1) pools' q rest hw' (fun m hm' => hm m (List.mem_cons_of_mem _ hm')) h

/-! ## Matches -/

theorem anyOk_mk {u v : Str} (hu : utf8Valid u = true) (hv : bytesOk v = true) : anyOk ⟨u, v⟩ = true := by
  simp only [anyOk, hu, hv, Bool.and_self]

theorem anyOk_int32 (v : Int) : anyOk (Mmf.anyInt32 v) = true := by
  unfold Mmf.anyInt32
  refine anyOk_mk (by decide +kernel) (bytesOk_ser fun f s h => ?_)
  unfold intField at h
  split at h <;> simp at h

theorem anyOk_string {s : Str} (hs : utf8Valid s = true) : anyOk (Mmf.anyString s) = true := by
  unfold Mmf.anyString
  refine anyOk_mk (by decide +kernel) (bytesOk_ser fun f x h => ?_)
  unfold strField at h
  split at h
  · simp at h
  · simp only [List.mem_singleton, Prod.mk.injEq, WVal.len.injEq] at h
    rw [h.2]; exact bytesOk_of_utf8 hs

theorem anyOk_time (t : Timestamp) : anyOk (Mmf.anyTime t) = true := by
  unfold Mmf.anyTime
  refine anyOk_mk (by decide +kernel) (bytesOk_ser fun f x h => ?_)
  unfold timestampF intField at h
  rcases List.mem_append.1 h with h | h <;> split at h <;> simp at h

theorem extensionsFor_ok {name prof : Str} (hn : utf8Valid name = true) (hp : utf8Valid prof = true) :
    mapOk (Mmf.extensionsFor name prof) anyOk = true := by
  refine mapOk_iff.2 ⟨(by decide +kernel : ["score".toList, "mmfName".toList, "profileName".toList].Nodup), fun e he => ?_⟩
  simp only [Mmf.extensionsFor, List.mem_cons, List.not_mem_nil, or_false] at he
  rcases he with rfl | rfl | rfl
  · exact ⟨(by decide +kernel : utf8Valid "score".toList = true), anyOk_int32 _⟩
  · exact ⟨(by decide +kernel : utf8Valid "mmfName".toList = true), anyOk_string hn⟩
  · exact ⟨(by decide +kernel : utf8Valid "profileName".toList = true), anyOk_string hp⟩

theorem matchId_ok {name t : Str} (hn : utf8Valid name = true) (ht : utf8Valid t = true) (n : Nat) :
    utf8Valid (Mmf.matchId name t n) = true := by
  unfold Mmf.matchId
  exact utf8Valid_append (utf8Valid_append (utf8Valid_append (utf8Valid_append (utf8Valid_append (by decide +kernel) hn) (by decide +kernel)) ht)
    (by decide +kernel)) (utf8Valid_fmtNat n)

theorem oneRoster_ok {name t : Str} (hn : utf8Valid name = true) (ht : utf8Valid t = true) (now : Nat → Timestamp) {q : Profile}
    (hq : utf8Valid q.name = true) (n : Nat) {ts : List Ticket} (hts : ∀ x ∈ ts, ticketOk x = true) {m : Match}
    (h : Mmf.oneRoster name t now (some q) n ts = some m) : matchOk m = true := by
  simp only [Mmf.oneRoster, Mmf.reqName, Option.map_some, Option.some.injEq] at h
  subst h
  have hr : utf8Valid (Mmf.rosterName name n) = true :=
    utf8Valid_append (utf8Valid_append hn (by decide +kernel)) (utf8Valid_fmtNatPad 4 n)
  have hx : mapOk [("CreationTime".toList, Mmf.anyTime (now n))] anyOk = true := by
    refine mapOk_iff.2 ⟨by simp [GoMap.WF], fun e he => ?_⟩
    rw [List.mem_singleton.1 he]
    exact ⟨(by decide +kernel : utf8Valid "CreationTime".toList = true), anyOk_time _⟩
  simp only [matchOk, matchId_ok hn ht, extensionsFor_ok hn hq, Bool.true_and, Bool.and_true]
  refine mapOk_iff.2 ⟨by simp [GoMap.WF], fun e he => ?_⟩
  rw [List.mem_singleton.1 he]
  refine ⟨hr, ?_⟩
  simp only [rosterOk, hr, Option.all_none, hx, Bool.and_true, Bool.true_and, List.all_eq_true]
  exact hts

theorem teamName_ok (i : Nat) : utf8Valid (Mmf.teamName i) = true := utf8Valid_append (by decide +kernel) (utf8Valid_fmtNatPad 2 i)

theorem twoTeams_ok {t : Nat → Str} (ht : ∀ n, utf8Valid (t n) = true) (now : Nat → Timestamp) {q : Profile}
    (hq : utf8Valid q.name = true) (n : Nat) {a b : List Ticket} (ha : ∀ x ∈ a, ticketOk x = true)
    (hb : ∀ x ∈ b, ticketOk x = true) {m : Match}
    (h : Mmf.twoTeams t now (some q) n a b = some m) : matchOk m = true := by
  simp only [Mmf.twoTeams, Mmf.reqName, Option.map_some, Option.some.injEq] at h
  subst h
  have hn : utf8Valid Mmf.tsName = true := by decide +kernel
  have hx := (mapOk_iff.1 (extensionsFor_ok hn hq))
  have hext : mapOk (Mmf.extensionsFor Mmf.tsName q.name ++ [("creationTime".toList, Mmf.anyTime (now n))]) anyOk = true := by
    refine mapOk_iff.2 ⟨(by decide +kernel :
      ["score".toList, "mmfName".toList, "profileName".toList, "creationTime".toList].Nodup), fun e he => ?_⟩
    rcases List.mem_append.1 he with he | he
    · exact hx.2 e he
    · rw [List.mem_singleton.1 he]; exact ⟨(by decide +kernel : utf8Valid "creationTime".toList = true), anyOk_time _⟩
  simp only [matchOk, matchId_ok hn (ht n), hext, Bool.true_and, Bool.and_true]
  refine mapOk_iff.2 ⟨by show List.Nodup _; exact (by decide +kernel : [Mmf.teamName 1, Mmf.teamName 2].Nodup), fun e he => ?_⟩
  simp only [List.mem_cons, List.not_mem_nil, or_false] at he
  rcases he with rfl | rfl
  · refine ⟨teamName_ok 1, ?_⟩
    simp only [rosterOk, teamName_ok, Option.all_none, Bool.true_and, Bool.and_eq_true, List.all_eq_true]
    exact ⟨ha, by decide +kernel⟩
  · refine ⟨teamName_ok 2, ?_⟩
    simp only [rosterOk, teamName_ok, Option.all_none, Bool.true_and, Bool.and_eq_true, List.all_eq_true]
    exact ⟨hb, by decide +kernel⟩

theorem emit_ok {ok : Nat → Bool} {n : Nat} {m : Go Match} {next : Go Mmf.RunRes} {r : Mmf.RunRes}
    (h : Mmf.emit ok n m next = some r) (hm : ∀ x, m = some x → matchOk x = true)
    (hn : ∀ r', next = some r' → ∀ x ∈ r'.sent, matchOk x = true) : ∀ x ∈ r.sent, matchOk x = true := by
  unfold Mmf.emit at h
  obtain ⟨y, hy, h⟩ := Option.bind_eq_some_iff.1 h
  split at h
  · obtain ⟨r', hr', rfl⟩ := Option.map_eq_some_iff.1 h
    intro x hx
    rcases List.mem_cons.1 hx with rfl | hx
    · exact hm _ hy
    · exact hn r' hr' x hx
  · cases h; intro x hx; cases hx

theorem soloLoop_ok {ok : Nat → Bool} {mk : Nat → List Ticket → Go Match}
    (hmk : ∀ n ts m, (∀ x ∈ ts, ticketOk x = true) → mk n ts = some m → matchOk m = true) :
    ∀ (ts r : List Ticket) (n : Nat) (res : Mmf.RunRes), (∀ x ∈ ts, ticketOk x = true) → (∀ x ∈ r, ticketOk x = true) →
      Mmf.soloLoop ok mk ts r n = some res → ∀ x ∈ res.sent, matchOk x = true
  | [], _, _, res, _, _, h => by
    unfold Mmf.soloLoop at h; cases h; intro x hx; cases hx
  | t :: ts, r, n, res, hts, hr, h => by
    unfold Mmf.soloLoop at h
    dsimp only at h
    have hr' : ∀ x ∈ r ++ [t], ticketOk x = true := by
      intro x hx
      rcases List.mem_append.1 hx with hx | hx
      · exact hr x hx
      · rw [List.mem_singleton.1 hx]; exact hts t (List.mem_cons_self ..)
    have hts' : ∀ x ∈ ts, ticketOk x = true := fun x hx => hts x (List.mem_cons_of_mem _ hx)
    split at h
    · exact emit_ok h (fun x hx => hmk n _ x hr' hx) fun r' h' =>
        soloLoop_ok hmk ts [] (n + 1) r' hts' (fun x hx => by cases hx) h'
    · exact soloLoop_ok hmk ts _ n res hts' hr' h

theorem brLoop_ok {ok : Nat → Bool} {mk : Nat → List Ticket → Go Match}
    (hmk : ∀ n ts m, (∀ x ∈ ts, ticketOk x = true) → mk n ts = some m → matchOk m = true)
    (ts : List Ticket) (hts : ∀ x ∈ ts, ticketOk x = true) (i n : Nat) (res : Mmf.RunRes)
    (h : Mmf.brLoop ok mk ts i n = some res) : ∀ x ∈ res.sent, matchOk x = true := by
  induction hk : ts.length - i using Nat.strongRecOn generalizing i n res with
  | ind k ih =>
    unfold Mmf.brLoop at h
    split at h
    · rename_i hle
      refine emit_ok h (fun x hx => hmk n _ x (fun y hy => hts y (List.drop_subset _ _ (List.take_subset _ _ hy))) hx)
        fun r' h' => ih (ts.length - (i + Mmf.brPlayers)) ?_ _ _ r' h' rfl
      simp only [Mmf.brPlayers] at *
      omega
    · cases h; intro x hx; cases hx

theorem fillTeam_ok {pools : GoMap Pool} (hp : ∀ n, ∀ x ∈ Mmf.participants (pools.load n), ticketOk x = true)
    (idx : GoMap Nat) (ex : Bool) : ∀ x ∈ (Mmf.fillTeam pools idx ex).tickets, ticketOk x = true := by
  unfold Mmf.fillTeam
  have : ∀ (l : List Str) (s : Mmf.TsSt), (∀ x ∈ s.tickets, ticketOk x = true) →
      ∀ x ∈ (l.foldl (Mmf.fillSlot pools) s).tickets, ticketOk x = true := by
    intro l
    induction l with
    | nil => intro s hs; exact hs
    | cons ty l ih =>
      intro s hs
      refine ih _ ?_
      unfold Mmf.fillSlot
      dsimp only
      split
      · exact hs
      · rename_i t ht
        intro x hx
        rcases List.mem_append.1 hx with hx | hx
        · exact hs x hx
        · rw [List.mem_singleton.1 hx]
          exact hp ty t (List.mem_of_getElem? ht)
  exact this _ _ fun x hx => by cases hx

theorem tsLoop_ok {ok : Nat → Bool} {mk : Nat → List Ticket → List Ticket → Go Match}
    (hmk : ∀ n a b m, (∀ x ∈ a, ticketOk x = true) → (∀ x ∈ b, ticketOk x = true) → mk n a b = some m → matchOk m = true)
    {pools : GoMap Pool} (hp : ∀ n, ∀ x ∈ Mmf.participants (pools.load n), ticketOk x = true) :
    ∀ (left n : Nat) (idx : GoMap Nat) (res : Mmf.RunRes), Mmf.tsLoop ok mk pools left n idx = some res →
      ∀ x ∈ res.sent, matchOk x = true
  | 0, _, _, _, h => by unfold Mmf.tsLoop at h; cases h; intro x hx; cases hx
  | left + 1, n, idx, res, h => by
    unfold Mmf.tsLoop at h
    dsimp only at h
    split at h
    · cases h; intro x hx; cases hx
    · exact emit_ok h (fun x hx => hmk n _ _ x (fillTeam_ok hp _ _) (fillTeam_ok hp _ _) hx) fun r' h' =>
        tsLoop_ok hmk hp left (n + 1) _ r' h'

theorem participants_ok {q : Profile} (hq : profileOk q = true) (e : Str × Pool) (he : e ∈ q.pools) :
    ∀ x ∈ Mmf.participants (some e.2), ticketOk x = true := by
  simp only [profileOk, Bool.and_eq_true] at hq
  have := ((mapOk_iff.1 hq.1.2).2 e he).2
  intro x hx
  unfold Mmf.participants at hx
  simp only [Option.bind_some] at hx
  cases hp : e.2.participants with
  | none => rw [hp] at hx; cases hx
  | some r =>
    rw [hp] at hx
    simp only [poolOk, hp, Option.all_some, rosterOk, Bool.and_eq_true, List.all_eq_true] at this
    exact this.1.2.1.2 x hx

theorem participants_load_ok {q : Profile} (hq : profileOk q = true) (n : Str) :
    ∀ x ∈ Mmf.participants (q.pools.load n), ticketOk x = true := by
  cases h : q.pools.load n with
  | none => intro x hx; cases hx
  | some pool => exact participants_ok hq (n, pool) (GoMap.mem_of_load h)

theorem matchOk_same {m m' : Match} (h : matchOk m = true) (hs : Spec.SameMatch m (some m')) : matchOk m' = true := by
  obtain ⟨x, hx, h1, h2, h3⟩ := hs
  cases hx
  simp only [matchOk, Bool.and_eq_true] at h ⊢
  exact ⟨⟨by rw [h1]; exact h.1.1, mapOk_perm h.1.2 h2⟩, mapOk_perm h.2 h3⟩

end OM.Wire
