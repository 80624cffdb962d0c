import Verif.Model.Requests
import Verif.Spec.Schema
import Verif.Spec.Text
import Verif.Lemmas.Messages
import Verif.Lemmas.Serve
/-! # Lemmas on the published message formats -/
namespace OM.Wire
open OM.Spec

/-! ## Fields -/

theorem getVarint_of {s : Str} {n : Nat} (h : Varint s n) (rest : Str) : getVarint (s ++ rest) = some (n, rest) := by
  induction h with
  | last h => simp [getVarint, h]
  | more h _ ih => simp [getVarint, Nat.not_lt.2 h, ih]

theorem varint_is (n : Nat) : Varint (varint n) n :=
  Serve.varint_of_get (by simpa using getVarint_varint n [])

theorem leValue_eq (s : Str) : leValue s = fromLe s := by
  induction s with
  | nil => rfl
  | cons c s ih => simp [leValue, fromLe, ih]

theorem Varint.ne_nil {s : Str} {n : Nat} (h : Varint s n) : s ≠ [] := by cases h <;> simp

theorem fieldBytes_ne_nil {f : Field} {a : Str} (h : FieldBytes f a) : a ≠ [] := by
  cases h with
  | varint h1 _ => simp [Varint.ne_nil h1.1.1]
  | fixed64 h1 _ _ => simp [Varint.ne_nil h1.1.1]
  | fixed32 h1 _ _ => simp [Varint.ne_nil h1.1.1]
  | len h1 _ => simp [Varint.ne_nil h1.1.1]

theorem getField_of {f : Field} {a : Str} (h : FieldBytes f a) (rest : Str) : getField (a ++ rest) = some (f, rest) := by
  cases h with
  | @varint f n tag p h1 h2 =>
    unfold getField
    rw [List.append_assoc, getVarint_of h1.1.1]
    have e1 : (8 * f + 0) % 8 = 0 := by omega
    have e2 : (8 * f + 0) / 8 = f := by omega
    simp only [e1, e2, if_true]
    rw [getVarint_of h2.1]; rfl
  | @fixed64 f x tag p h1 h2 h3 =>
    unfold getField
    rw [List.append_assoc, getVarint_of h1.1.1]
    have e1 : (8 * f + 1) % 8 = 1 := by omega
    have e2 : (8 * f + 1) / 8 = f := by omega
    have e3 : ¬ (p ++ rest).length < 8 := by rw [List.length_append]; omega
    have e4 : (p ++ rest).take 8 = p := by rw [← h2, List.take_left]
    have e5 : (p ++ rest).drop 8 = rest := by rw [← h2, List.drop_left]
    have e6 : BitVec.ofNat 64 (fromLe p) = x := by rw [← leValue_eq, h3, BitVec.ofNat_toNat, BitVec.setWidth_eq]
    simp only [e1, e2, e3, e4, e5, e6, Nat.one_ne_zero, if_false, if_true]
  | @fixed32 f x tag p h1 h2 h3 =>
    unfold getField
    rw [List.append_assoc, getVarint_of h1.1.1]
    have e1 : (8 * f + 5) % 8 = 5 := by omega
    have e2 : (8 * f + 5) / 8 = f := by omega
    have e3 : ¬ (p ++ rest).length < 4 := by rw [List.length_append]; omega
    have e4 : (p ++ rest).take 4 = p := by rw [← h2, List.take_left]
    have e5 : (p ++ rest).drop 4 = rest := by rw [← h2, List.drop_left]
    have e6 : BitVec.ofNat 32 (fromLe p) = x := by rw [← leValue_eq, h3, BitVec.ofNat_toNat, BitVec.setWidth_eq]
    simp only [e1, e2, e3, e4, e5, e6]
    rfl
  | @len f tag l s h1 h2 =>
    unfold getField
    rw [List.append_assoc, getVarint_of h1.1.1, List.append_assoc]
    have e1 : (8 * f + 2) % 8 = 2 := by omega
    have e2 : (8 * f + 2) / 8 = f := by omega
    have e3 : ¬ (s ++ rest).length < s.length := by rw [List.length_append]; omega
    simp only [e1, e2]
    rw [getVarint_of h2.1]
    simp

theorem messageBytes_length {fs : List Field} {b : Str} (h : MessageBytes fs b) : fs.length ≤ b.length := by
  induction h with
  | nil => simp
  | cons h _ ih =>
    have := List.length_pos_iff.2 (fieldBytes_ne_nil h)
    simp only [List.length_cons, List.length_append]; omega

theorem parse_of {fs : List Field} {b : Str} (h : MessageBytes fs b) : parse b = fs := by
  unfold parse
  have : ∀ fuel, fs.length ≤ fuel → parseF fuel b = fs := by
    induction h with
    | nil => intro fuel _; cases fuel <;> rfl
    | cons h _ ih =>
      intro fuel hf
      cases fuel with
      | zero => simp at hf
      | succ fuel =>
        unfold parseF
        rw [getField_of h]
        simp only [ih fuel (by simpa using hf)]
  exact this _ (messageBytes_length h)

theorem parseAll_of {fs : List Field} {b : Str} (h : MessageBytes fs b) : parseAll b = some fs := by
  unfold parseAll
  have : ∀ fuel, fs.length ≤ fuel → parseAllF fuel b = some fs := by
    induction h with
    | nil => intro fuel _; cases fuel <;> rfl
    | cons h _ ih =>
      intro fuel hf
      cases fuel with
      | zero => simp at hf
      | succ fuel =>
        unfold parseAllF
        rw [if_neg (by simp [fieldBytes_ne_nil h]), getField_of h]
        simp only [ih fuel (by simpa using hf)]
        rfl
  exact this _ (messageBytes_length h)

theorem parseAll_ser (fs : List Field) : parseAll (ser fs) = some fs := by
  unfold parseAll
  have : ∀ fuel, fs.length ≤ fuel → parseAllF fuel (ser fs) = some fs := by
    induction fs with
    | nil => intro fuel _; cases fuel <;> rfl
    | cons f fs ih =>
      intro fuel hf
      cases fuel with
      | zero => simp at hf
      | succ fuel =>
        have e : ser (f :: fs) = encField f ++ ser fs := by simp [ser]
        unfold parseAllF
        rw [e, if_neg (by simp [encField_ne_nil]), getField_encField]
        simp only [ih fuel (by simpa using hf)]
        rfl
  exact this _ (length_le_ser fs)

theorem messageBytes_append {fs gs : List Field} {a b : Str} (h : MessageBytes fs a) (h' : MessageBytes gs b) :
    MessageBytes (fs ++ gs) (a ++ b) := by
  induction h with
  | nil => exact h'
  | cons h _ ih => rw [List.append_assoc]; exact .cons h ih

theorem parse_flatten {bs : List Str} (h : ∀ b ∈ bs, IsMessage b) : parse bs.flatten = bs.flatMap parse ∧ IsMessage bs.flatten := by
  induction bs with
  | nil => exact ⟨rfl, _, .nil⟩
  | cons b bs ih =>
    rw [List.forall_mem_cons] at h
    obtain ⟨e, gs, hg⟩ := ih h.2
    obtain ⟨fs, hf⟩ := h.1
    have := messageBytes_append hf hg
    rw [List.flatten_cons, List.flatMap_cons, parse_of this, parse_of hf, ← e, parse_of hg]
    exact ⟨rfl, _, this⟩

/-! ## Written fields -/

/-- Short enough for its length to be written. -/
abbrev Small (s : Str) : Prop := s.length < 2 ^ 64

/-- A field with a number and a varint that can be written. -/
def Plain (p : Field) : Prop := 1 ≤ p.1 ∧ p.1 < 2 ^ 29 ∧ ∀ n, p.2 = .varint n → n < 2 ^ 64

theorem varintF_length (fuel n : Nat) : (varintF fuel n).length ≤ fuel + 1 := by
  induction fuel generalizing n with
  | zero => simp [varintF]
  | succ fuel ih =>
    unfold varintF
    split
    · simp
    · have := ih (n / 128); simp only [List.length_cons]; omega

theorem varint64_is {n : Nat} (h : n < 2 ^ 64) : Varint64 (varint n) n := by
  refine ⟨varint_is n, Nat.le_trans (varintF_length _ _) ?_, h⟩
  by_cases hn : n = 0
  · subst hn; decide
  · have := (Nat.log2_lt hn).2 h
    omega

theorem tag_is {f : Nat} (ty : Nat) (h1 : 1 ≤ f) (h2 : f < 2 ^ 29) (ht : ty < 8) : Tag (varint (f * 8 + ty)) f ty :=
  ⟨Nat.mul_comm 8 f ▸ varint64_is (by omega), h1, h2⟩

theorem fieldBytes_enc {f : Field} (h : Plain f) (hs : ∀ s, f.2 = .len s → Small s) : FieldBytes f (encField f) := by
  obtain ⟨n, v⟩ := f
  obtain ⟨h1, h2, h3⟩ := h
  cases v with
  | varint m => exact .varint (tag_is 0 h1 h2 (by omega)) (varint64_is (h3 m rfl))
  | fixed64 x =>
    refine .fixed64 (tag_is 1 h1 h2 (by omega)) (leBytes_length 8 _) ?_
    rw [leValue_eq, fromLe_leBytes]
    exact Nat.mod_eq_of_lt (by have := x.isLt; simpa using this)
  | fixed32 x =>
    refine .fixed32 (tag_is 5 h1 h2 (by omega)) (leBytes_length 4 _) ?_
    rw [leValue_eq, fromLe_leBytes]
    exact Nat.mod_eq_of_lt (by have := x.isLt; simpa using this)
  | len s => exact .len (tag_is 2 h1 h2 (by omega)) (varint64_is (hs s rfl))

theorem small_of_mem {fs : List Field} {n : Nat} {s : Str} (h : (n, WVal.len s) ∈ fs) (hs : Small (ser fs)) : Small s := by
  obtain ⟨a, b, rfl⟩ := List.append_of_mem h
  have : ser (a ++ (n, .len s) :: b) = ser a ++ ((varint (n * 8 + 2) ++ (varint s.length ++ s)) ++ ser b) := by
    simp [ser, encField]
  rw [Small, this] at hs
  simp only [List.length_append] at hs
  show s.length < _
  omega

theorem messageBytes_ser (fs : List Field) (hp : ∀ p ∈ fs, Plain p) (hs : Small (ser fs)) : MessageBytes fs (ser fs) := by
  have : ∀ p ∈ fs, ∀ s, p.2 = .len s → Small s := fun p hp s e => small_of_mem (n := p.1) (by rw [← e]; exact hp) hs
  clear hs
  induction fs with
  | nil => exact .nil
  | cons f fs ih =>
    rw [List.forall_mem_cons] at hp this
    exact .cons (fieldBytes_enc hp.1 this.1) (ih hp.2 this.2)

theorem plain_len {n : Nat} (h : 1 ≤ n ∧ n < 2 ^ 29) (s : Str) : Plain (n, .len s) := ⟨h.1, h.2, fun _ e => by cases e⟩

theorem plain_dbl' {n : Nat} (h : 1 ≤ n ∧ n < 2 ^ 29) (x : F64) : Plain (n, .fixed64 x) := ⟨h.1, h.2, fun _ e => by cases e⟩

theorem plain_str {n : Nat} (h : 1 ≤ n ∧ n < 2 ^ 29) {s : Str} : ∀ p ∈ strField n s, Plain p := by
  unfold strField
  split
  · simp
  · simpa using plain_len h s

theorem plain_int {n : Nat} (h : 1 ≤ n ∧ n < 2 ^ 29) {v : Int} : ∀ p ∈ intField n v, Plain p := by
  unfold intField
  split
  · simp
  · rw [List.forall_mem_singleton]
    exact ⟨h.1, h.2, fun m e => by cases e; unfold enc64; omega⟩

theorem plain_dbl {n : Nat} (h : 1 ≤ n ∧ n < 2 ^ 29) {x : F64} : ∀ p ∈ dblField n x, Plain p := by
  unfold dblField
  split
  · simp
  · rw [List.forall_mem_singleton]; exact plain_dbl' h x

theorem plain_msg {n : Nat} (h : 1 ≤ n ∧ n < 2 ^ 29) {o : Option (List Field)} : ∀ p ∈ msgField n o, Plain p := by
  intro p hp
  obtain ⟨m, _, rfl⟩ := List.mem_map.1 hp
  exact plain_len h _

theorem plain_rep {n : Nat} (h : 1 ≤ n ∧ n < 2 ^ 29) {l : List Str} : ∀ p ∈ repField n l, Plain p := by
  intro p hp
  obtain ⟨m, _, rfl⟩ := List.mem_map.1 hp
  exact plain_len h _

theorem plain_map {V : Type} {n : Nat} (h : 1 ≤ n ∧ n < 2 ^ 29) {m : GoMap V} {val : V → WVal} : ∀ p ∈ mapField n m val, Plain p := by
  intro p hp
  obtain ⟨e, _, rfl⟩ := List.mem_map.1 hp
  exact plain_len h _

/-- The fields of an encoder (`d`) can be written. -/
macro "plain " d:ident : tactic => `(tactic| (
  unfold $d
  try simp only [List.forall_mem_append, extF]
  (repeat' constructor) <;>
    first
      | exact plain_str (by decide)
      | exact plain_int (by decide)
      | exact plain_dbl (by decide)
      | exact plain_msg (by decide)
      | exact plain_rep (by decide)
      | exact plain_map (by decide)))

/-! ## Reading occurrences -/

theorem lens_occ (n : Nat) (fs : List Field) : lens n fs = contents (occ n fs) := by
  unfold lens occ contents
  induction fs with
  | nil => rfl
  | cons p fs ih =>
    obtain ⟨g, v⟩ := p
    by_cases hg : g = n <;> cases v <;> simp [hg] at * <;> exact ih

theorem ints_occ (n : Nat) (fs : List Field) : ints n fs = numbers (occ n fs) := by
  unfold ints occ numbers
  induction fs with
  | nil => rfl
  | cons p fs ih =>
    obtain ⟨g, v⟩ := p
    by_cases hg : g = n <;> cases v <;> simp [hg] at * <;> exact ih

theorem dbls_occ (n : Nat) (fs : List Field) : dbls n fs = doubles (occ n fs) := by
  unfold dbls occ doubles
  induction fs with
  | nil => rfl
  | cons p fs ih =>
    obtain ⟨g, v⟩ := p
    by_cases hg : g = n <;> cases v <;> simp [hg] at * <;> exact ih

theorem contents_map (bs : List Str) : contents (bs.map .len) = bs := by
  unfold contents
  rw [List.filterMap_map]
  exact List.filterMap_some

theorem last_getD {α : Type} {zero v : α} {l : List α} : Last zero v l ↔ l.getLast?.getD zero = v := by
  constructor
  · rintro (⟨l', rfl⟩ | ⟨rfl, rfl⟩) <;> simp
  · intro h
    rcases List.eq_nil_or_concat l with rfl | ⟨l', x, rfl⟩
    · exact .inr ⟨by simpa using h.symm, rfl⟩
    · refine .inl ⟨l', ?_⟩
      simp at h
      rw [h, List.concat_eq_append]

theorem getStr_of' {n : Nat} {fs : List Field} {s : Str} (h : BytesVal s (occ n fs)) : getStr n fs = s := by
  unfold getStr
  rw [lens_occ]
  exact last_getD.1 h

theorem getStr_of {n : Nat} {fs : List Field} {s : Str} (h : TextVal s (occ n fs)) : getStr n fs = s := getStr_of' h.1

theorem getDbl_of {n : Nat} {fs : List Field} {x : F64} (h : DoubleVal x (occ n fs)) : getDbl n fs = x := by
  unfold getDbl
  rw [dbls_occ]
  exact last_getD.1 h

theorem map_getD {α : Type} {f : Nat → α} {z : α} (hz : f 0 = z) {l : List Nat} {k : Nat} (h : Last 0 k l) :
    (l.getLast?.map f).getD z = f k := by
  rcases h with ⟨l', rfl⟩ | ⟨rfl, rfl⟩ <;> simp [hz]

theorem getInt64_of {n : Nat} {fs : List Field} {v : Int} (h : NumVal 64 v (occ n fs)) (h1 : -2 ^ 63 ≤ v) (h2 : v < 2 ^ 63) :
    getInt64 n fs = v := by
  obtain ⟨k, hk, j, hj⟩ := h
  unfold getInt64
  rw [ints_occ, map_getD (by decide) hk]
  unfold dec64
  split <;> omega

theorem getInt32_of {n : Nat} {fs : List Field} {v : Int} (h : NumVal 32 v (occ n fs)) (h1 : -2 ^ 31 ≤ v) (h2 : v < 2 ^ 31) :
    getInt32 n fs = v := by
  obtain ⟨k, hk, j, hj⟩ := h
  unfold getInt32
  rw [ints_occ, map_getD (by decide) hk]
  unfold dec32
  split <;> omega

theorem getMsg_pieces {α : Type} {R : α → Str → Prop} {dec : List Field → α} {ok : α → Prop}
    (hd : ∀ v b, R v b → ok v → dec (parse b) = v) {n : Nat} {fs : List Field} {v : α} {bs : List Str}
    (h : Pieces R v bs (occ n fs)) (hok : ok v) :
    dec (bs.flatMap parse) = v ∧ getMsg n fs = if bs = [] then none else some (bs.flatMap parse) := by
  obtain ⟨h1, h2, h3⟩ := h
  refine ⟨by rw [← (parse_flatten h2).1]; exact hd _ _ h3 hok, ?_⟩
  unfold getMsg merge
  rw [lens_occ, h1]
  cases bs <;> simp

theorem getMsg_of {α : Type} {R : α → Str → Prop} {dec : List Field → α} {ok : α → Prop}
    (hd : ∀ v b, R v b → ok v → dec (parse b) = v) {n : Nat} {fs : List Field} {o : Option α}
    (h : MsgVal R o (occ n fs)) (hok : ∀ v, o = some v → ok v) : (getMsg n fs).map dec = o := by
  cases o with
  | none =>
    unfold getMsg
    rw [lens_occ, show contents (occ n fs) = [] from h]; rfl
  | some v =>
    obtain ⟨bs, hb, hr⟩ := h
    obtain ⟨e1, e2⟩ := getMsg_pieces hd hr (hok v rfl)
    rw [e2, if_neg hb, Option.map_some, e1]

theorem getMsgs_of {α : Type} {R : α → Str → Prop} {dec : List Field → α} {ok : α → Prop}
    (hd : ∀ v b, R v b → ok v → dec (parse b) = v) {n : Nat} {fs : List Field} {l : List α}
    (h : MsgsVal R l (occ n fs)) (hok : ∀ v ∈ l, ok v) : getMsgs n fs dec = l := by
  unfold getMsgs
  rw [lens_occ]
  unfold MsgsVal at h
  generalize contents (occ n fs) = bs at h ⊢
  induction h with
  | nil => rfl
  | cons h _ ih =>
    rw [List.forall_mem_cons] at hok
    rw [List.map_cons, hd _ _ h hok.1, ih hok.2]

/-! ## Maps from their entries -/

/-- The last entry for each key. -/
def lastEntries {V : Type} : List (Str × V) → GoMap V
  | [] => []
  | e :: l => if e.1 ∈ l.map (·.1) then lastEntries l else e :: lastEntries l

theorem lastEntries_keys {V : Type} (l : List (Str × V)) (k : Str) : k ∈ (lastEntries l).map (·.1) ↔ k ∈ l.map (·.1) := by
  induction l with
  | nil => exact Iff.rfl
  | cons e l ih =>
    unfold lastEntries
    split
    · rename_i h
      rw [ih, List.map_cons, List.mem_cons]
      exact ⟨.inr, fun hk => hk.elim (fun hk => hk ▸ h) id⟩
    · rw [List.map_cons, List.map_cons, List.mem_cons, List.mem_cons, ih]

theorem lastEntries_nodup {V : Type} (l : List (Str × V)) : ((lastEntries l).map (·.1)).Nodup := by
  induction l with
  | nil => exact List.nodup_nil
  | cons e l ih =>
    unfold lastEntries
    split
    · exact ih
    · rename_i h
      rw [List.map_cons, List.nodup_cons, lastEntries_keys]
      exact ⟨h, ih⟩

theorem lastEntries_mem {V : Type} {l : List (Str × V)} {e : Str × V} (h : e ∈ lastEntries l) : e ∈ l := by
  induction l with
  | nil => exact h
  | cons x l ih =>
    unfold lastEntries at h
    split at h
    · exact List.mem_cons_of_mem _ (ih h)
    · rcases List.mem_cons.1 h with rfl | h
      · exact List.mem_cons_self
      · exact List.mem_cons_of_mem _ (ih h)

theorem foldl_store_last {V : Type} (l : List (Str × V)) (acc : GoMap V) :
    l.foldl (fun m e => m.store e.1 e.2) acc = acc.filter (fun e => decide (e.1 ∉ l.map (·.1))) ++ lastEntries l := by
  induction l generalizing acc with
  | nil => simp [lastEntries]
  | cons e l ih =>
    rw [List.foldl_cons, ih, GoMap.store, GoMap.delete, List.filter_append, List.filter_filter]
    have h1 : (acc.filter fun a => decide (a.1 ∉ l.map (·.1)) && decide (a.1 ≠ e.1)) =
        acc.filter fun a => decide (a.1 ∉ (e :: l).map (·.1)) := by
      refine List.filter_congr fun a _ => ?_
      by_cases h : a.1 = e.1 <;> simp [h]
    rw [lastEntries]
    by_cases h : e.1 ∈ l.map (·.1)
    · rw [if_pos h, List.filter_cons_of_neg (by simpa using h), List.filter_nil, List.append_nil]
      rw [h1]
    · rw [if_neg h, List.filter_cons_of_pos (by simpa using h), List.filter_nil, List.append_assoc]
      rw [h1]
      rfl

theorem mapOf_last {V : Type} {T : V → Prop} {l : List (Str × V)} (h : ∀ e ∈ l, T e.2) : MapOf T l (lastEntries l) := by
  induction l with
  | nil => exact .nil
  | cons e l ih =>
    rw [List.forall_mem_cons] at h
    unfold lastEntries
    split
    · rename_i hk
      obtain ⟨e', he', hk⟩ := List.mem_map.1 hk
      exact .again (ih h.2) ⟨e', he', hk⟩ h.1
    · exact .keep (ih h.2)

theorem _root_.OM.Spec.MapOf.mem_or {V : Type} {T : V → Prop} {l : List (Str × V)} {m : GoMap V} (h : MapOf T l m) : ∀ e ∈ l, e ∈ m ∨ T e.2 := by
  induction h with
  | nil => simp
  | keep _ ih =>
    rw [List.forall_mem_cons]
    exact ⟨.inl List.mem_cons_self, fun e he => (ih e he).imp (List.mem_cons_of_mem _) id⟩
  | again _ _ ht ih => exact List.forall_mem_cons.2 ⟨.inr ht, ih⟩

theorem _root_.OM.Spec.MapOf.keys {V : Type} {T : V → Prop} {l : List (Str × V)} {m : GoMap V} (h : MapOf T l m) (k : Str) (hk : k ∈ l.map (·.1)) :
    k ∈ m.map (·.1) := by
  induction h with
  | nil => exact hk
  | keep _ ih =>
    rw [List.map_cons, List.mem_cons] at hk ⊢
    exact hk.imp id ih
  | again _ h _ ih =>
    rw [List.map_cons, List.mem_cons] at hk
    rcases hk with rfl | hk
    · obtain ⟨e', he', hk⟩ := h
      exact ih (hk ▸ List.mem_map_of_mem he')
    · exact ih hk

theorem _root_.OM.Spec.MapOf.eq_last {V : Type} {T : V → Prop} {l : List (Str × V)} {m : GoMap V} (h : MapOf T l m) (hn : (m.map (·.1)).Nodup) :
    lastEntries l = m := by
  induction h with
  | nil => rfl
  | keep h ih =>
    rw [List.map_cons, List.nodup_cons] at hn
    rw [lastEntries, if_neg fun hk => hn.1 (h.keys _ hk), ih hn.2]
  | again h hk _ ih =>
    obtain ⟨e', he', hk⟩ := hk
    rw [lastEntries, if_pos (hk ▸ List.mem_map_of_mem he'), ih hn]

theorem mapOf_self {V : Type} {T : V → Prop} (m : GoMap V) : MapOf T m m := by
  induction m with
  | nil => exact .nil
  | cons e m ih => exact .keep ih

theorem getMap_last {V : Type} (n : Nat) (fs : List Field) (val : List Field → V) :
    getMap n fs val = lastEntries ((lens n fs).map fun s => (getStr 1 (parse s), val (parse s))) := by
  have := foldl_store_last ((lens n fs).map fun s => (getStr 1 (parse s), val (parse s))) []
  rw [List.foldl_map] at this
  simpa [getMap] using this

theorem getMap_of {V : Type} {T : V → Prop} {R : V → List WVal → Prop} {val : List Field → V} {ok : V → Prop}
    (hd : ∀ v fs, R v (occ 2 fs) → ok v → val fs = v) (hT : ∀ v, T v → ok v) {n : Nat} {fs : List Field} {m : GoMap V}
    (h : MapVal T R m (occ n fs)) (hn : (m.map (·.1)).Nodup) (hall : ∀ e ∈ m, ok e.2) : getMap n fs val = m := by
  obtain ⟨l, hl, hm⟩ := h
  have hok : ∀ e ∈ l, ok e.2 := fun e he => (hm.mem_or e he).elim (hall e) (hT _)
  rw [getMap_last, lens_occ, ← hm.eq_last hn]
  congr 1
  clear hm
  unfold MsgsVal at hl
  generalize contents (occ n fs) = bs at hl ⊢
  induction hl with
  | nil => rfl
  | cons h _ ih =>
    rw [List.forall_mem_cons] at hok
    obtain ⟨fs, h1, h2, h3⟩ := h
    rw [List.map_cons, ih hok.2, parse_of h1, getStr_of h2, hd _ _ h3 hok.1]

theorem msgInMap_of {V : Type} {R : V → Str → Prop} {dec : List Field → V} {ok : V → Prop}
    (hd : ∀ v b, R v b → ok v → dec (parse b) = v) (v : V) (fs : List Field) (h : MsgInMap R v (occ 2 fs))
    (hok : ok v) : dec ((getMsg 2 fs).getD []) = v := by
  obtain ⟨bs, hr⟩ := h
  obtain ⟨e1, e2⟩ := getMsg_pieces hd hr hok
  rw [e2]
  by_cases hb : bs = []
  · subst hb; exact e1
  · rw [if_neg hb]; exact e1

/-! ## Declarations -/

theorem declared_num {m f ty : String} {n : Nat} (k : Nat) (h : Declared m f ty n)
    (hk : (published.all fun d => d.1 != m || d.2.all fun e => e.1 != f || e.2.1 != ty || e.2.2 == k) = true) : n = k := by
  obtain ⟨d, hd, rfl, he⟩ := h
  have h1 := List.all_eq_true.1 hk d hd
  simp only [bne_self_eq_false, Bool.false_or] at h1
  have h2 := List.all_eq_true.1 h1 _ he
  simpa using h2

theorem has_at {m f ty : String} {fs : List Field} {R : List WVal → Prop} (k : Nat) (h : Has m f ty fs R)
    (hk : (published.all fun d => d.1 != m || d.2.all fun e => e.1 != f || e.2.1 != ty || e.2.2 == k) = true) :
    R (occ k fs) := by
  obtain ⟨n, hn, h⟩ := h
  rwa [declared_num k hn hk] at h

/-! ## Whatever encodes a message is read as that message -/

theorem timestamp_of (t : Timestamp) (b : Str) (h : IsTimestamp t b) (hok : GoTime t) : toTimestamp (parse b) = t := by
  obtain ⟨fs, hb, h1, h2⟩ := h
  rw [parse_of hb]
  unfold toTimestamp
  rw [getInt64_of (has_at 1 h1 (by decide +kernel)) hok.1.1 hok.1.2, getInt32_of (has_at 2 h2 (by decide +kernel)) hok.2.1 hok.2.2]

theorem any_of (a : AnyPb) (b : Str) (h : IsAny a b) (_ : True) : toAny (parse b) = a := by
  obtain ⟨fs, hb, h1, h2⟩ := h
  rw [parse_of hb]
  unfold toAny
  rw [getStr_of (has_at 1 h1 (by decide +kernel)), getStr_of' (has_at 2 h2 (by decide +kernel))]

theorem ext_of {n : Nat} {fs : List Field} {m : GoMap AnyPb} (h : MapVal AnyVal (MsgInMap IsAny) m (occ n fs)) (hok : GoExtensions m) :
    toExt n fs = m := getMap_of (msgInMap_of any_of) (fun _ _ => trivial) h hok.keys fun _ _ => trivial

theorem data_of (d : FilterableData) (b : Str) (h : IsData d b) (hok : GoData d ∧ ∀ x, d.creationTime = some x → GoTime x) :
    toData (parse b) = d := by
  obtain ⟨fs, hb, h1, h2, h3, h4⟩ := h
  rw [parse_of hb]
  unfold toData
  rw [lens_occ, show contents _ = _ from has_at 1 h1 (by decide +kernel),
    getMap_of (ok := fun _ => True) (val := fun e => getStr 2 e) (fun _ _ h _ => getStr_of h) (fun _ _ => trivial) (has_at 2 h2 (by decide +kernel))
      hok.1.stringArgs (fun _ _ => trivial),
    getMap_of (ok := fun _ => True) (val := fun e => (dbls 2 e).getLast?.getD 0) (fun _ _ h _ => getDbl_of h) (fun _ _ => trivial)
      (has_at 3 h3 (by decide +kernel)) hok.1.doubleArgs (fun _ _ => trivial),
    getMsg_of timestamp_of (has_at 4 h4 (by decide +kernel)) hok.2]

theorem ticket_of (t : Ticket) (b : Str) (h : IsTicket t b) (hok : GoSentTicket t) : toTicket (parse b) = t := by
  obtain ⟨fs, hb, h1, h2, h3, h4⟩ := h
  rw [parse_of hb]
  unfold toTicket
  rw [getStr_of (has_at 1 h1 (by decide +kernel)), getMsg_of timestamp_of (has_at 2 h2 (by decide +kernel)) hok.expiration,
    getMsg_of data_of (has_at 3 h3 (by decide +kernel)) (fun d hd => ⟨hok.attributes d hd, fun x hx => hok.creation d x hd hx⟩),
    ext_of (has_at 4 h4 (by decide +kernel)) hok.extensions]

theorem assignment_of (a : Assignment) (b : Str) (h : IsAssignment a b) (hok : GoExtensions a.extensions) :
    toAssignment (parse b) = a := by
  obtain ⟨fs, hb, h1, h2⟩ := h
  rw [parse_of hb]
  unfold toAssignment
  rw [getStr_of (has_at 1 h1 (by decide +kernel)), ext_of (has_at 2 h2 (by decide +kernel)) hok]

theorem roster_of (r : Roster) (b : Str) (h : IsRoster r b) (hok : GoRoster r) : toRoster (parse b) = r := by
  obtain ⟨fs, hb, h1, h2, h3, h4⟩ := h
  rw [parse_of hb]
  unfold toRoster
  rw [getStr_of (has_at 1 h1 (by decide +kernel)), getMsg_of assignment_of (has_at 2 h2 (by decide +kernel)) hok.assignment,
    getMsgs_of ticket_of (has_at 3 h3 (by decide +kernel)) hok.tickets, ext_of (has_at 4 h4 (by decide +kernel)) hok.extensions]

theorem tagFilter_of (f : TagPresentFilter) (b : Str) (h : IsTagFilter f b) (_ : True) : toTagFilter (parse b) = f := by
  obtain ⟨fs, hb, h1⟩ := h
  rw [parse_of hb]
  unfold toTagFilter
  rw [getStr_of (has_at 1 h1 (by decide +kernel))]

theorem stringFilter_of (f : StringEqualsFilter) (b : Str) (h : IsStringFilter f b) (_ : True) : toStrFilter (parse b) = f := by
  obtain ⟨fs, hb, h1, h2⟩ := h
  rw [parse_of hb]
  unfold toStrFilter
  rw [getStr_of (has_at 1 h1 (by decide +kernel)), getStr_of (has_at 2 h2 (by decide +kernel))]

theorem doubleFilter_of (f : DoubleRangeFilter) (b : Str) (h : IsDoubleFilter f b) (hok : GoInt32 f.bounds) :
    toDblFilter (parse b) = f := by
  obtain ⟨fs, hb, h1, h2, h3, h4⟩ := h
  rw [parse_of hb]
  unfold toDblFilter
  rw [getStr_of (has_at 1 h1 (by decide +kernel)), getDbl_of (has_at 2 h2 (by decide +kernel)),
    getDbl_of (has_at 3 h3 (by decide +kernel)), getInt32_of (has_at 4 h4 (by decide +kernel)) hok.1 hok.2]

theorem timeFilter_of (f : CreationTimeRangeFilter) (b : Str) (h : IsTimeFilter f b)
    (hok : GoInt32 f.bounds ∧ (∀ x, f.start = some x → GoTime x) ∧ ∀ x, f.stop = some x → GoTime x) :
    toCtFilter (parse b) = f := by
  obtain ⟨fs, hb, h1, h2, h3⟩ := h
  rw [parse_of hb]
  unfold toCtFilter
  rw [getMsg_of timestamp_of (has_at 6 h1 (by decide +kernel)) hok.2.1, getMsg_of timestamp_of (has_at 7 h2 (by decide +kernel)) hok.2.2,
    getInt32_of (has_at 4 h3 (by decide +kernel)) hok.1.1 hok.1.2]

theorem pool_of (p : Pool) (b : Str) (h : IsPool p b) (hok : GoPool p) : toPool (parse b) = p := by
  obtain ⟨fs, hb, h1, h2, h3, h4, h5, h6, h7⟩ := h
  rw [parse_of hb]
  unfold toPool
  rw [getStr_of (has_at 1 h1 (by decide +kernel)),
    getMsgs_of tagFilter_of (has_at 2 h2 (by decide +kernel)) (fun _ _ => trivial),
    getMsgs_of stringFilter_of (has_at 3 h3 (by decide +kernel)) (fun _ _ => trivial),
    getMsgs_of doubleFilter_of (has_at 4 h4 (by decide +kernel)) hok.doubles,
    getMsg_of timeFilter_of (has_at 5 h5 (by decide +kernel)) hok.times,
    getMsg_of roster_of (has_at 6 h6 (by decide +kernel)) hok.participants, ext_of (has_at 7 h7 (by decide +kernel)) hok.extensions]

theorem profile_of (p : Profile) (b : Str) (h : IsProfile p b) (hok : GoProfile p) : toProfile (parse b) = p := by
  obtain ⟨fs, hb, h1, h2, h3⟩ := h
  rw [parse_of hb]
  unfold toProfile getMsgMap
  rw [getStr_of (has_at 1 h1 (by decide +kernel)), getMap_of (msgInMap_of pool_of) (fun _ h => h.1) (has_at 2 h2 (by decide +kernel)) hok.keys hok.pools,
    ext_of (has_at 3 h3 (by decide +kernel)) hok.extensions]

theorem match_of (m : Match) (b : Str) (h : IsMatch m b) (hok : GoMatch m) : toMatch (parse b) = m := by
  obtain ⟨fs, hb, h1, h2, h3⟩ := h
  rw [parse_of hb]
  unfold toMatch getMsgMap
  rw [getStr_of (has_at 1 h1 (by decide +kernel)), getMap_of (msgInMap_of roster_of) (fun _ h => h.1) (has_at 2 h2 (by decide +kernel)) hok.keys hok.rosters,
    ext_of (has_at 3 h3 (by decide +kernel)) hok.extensions]

theorem spec_of (s : Serve.MmfSpec) (b : Str) (h : IsSpec s b) (hok : GoInt32 s.port ∧ GoInt32 s.type) : toSpec (parse b) = s := by
  obtain ⟨fs, hb, h1, h2, h3, h4⟩ := h
  rw [parse_of hb]
  unfold toSpec
  rw [getStr_of (has_at 1 h1 (by decide +kernel)), getStr_of (has_at 2 h2 (by decide +kernel)),
    getInt32_of (has_at 3 h3 (by decide +kernel)) hok.1.1 hok.1.2, getInt32_of (has_at 4 h4 (by decide +kernel)) hok.2.1 hok.2.2]

/-! ## What is written encodes the message -/

theorem occ_append (n : Nat) (a b : List Field) : occ n (a ++ b) = occ n a ++ occ n b := by simp [occ]

theorem occ_rep (n g : Nat) (l : List Str) : occ n (repField g l) = if g = n then l.map .len else [] := by
  unfold occ repField
  by_cases h : g = n
  · rw [if_pos h, List.filter_eq_self.2 (by simp [h]), List.map_map]; rfl
  · rw [if_neg h, List.filter_eq_nil_iff.2 (by simp [h]), List.map_nil]

theorem occ_map {V : Type} (n g : Nat) (m : GoMap V) (val : V → WVal) :
    occ n (mapField g m val) = if g = n then m.map (fun e => .len (ser [(1, .len e.1), (2, val e.2)])) else [] := by
  unfold occ mapField
  by_cases h : g = n
  · rw [if_pos h, List.filter_eq_self.2, List.map_map]
    · rfl
    · intro p hp
      obtain ⟨e, _, rfl⟩ := List.mem_map.1 hp
      simp [h]
  · rw [if_neg h, List.filter_eq_nil_iff.2, List.map_nil]
    intro p hp
    obtain ⟨e, _, rfl⟩ := List.mem_map.1 hp
    simp [h]

theorem occ_str (n g : Nat) (s : Str) : occ n (strField g s) = if g = n ∧ s ≠ [] then [.len s] else [] := by
  unfold occ strField
  by_cases h : g = n <;> by_cases h' : s = [] <;> simp [h, h']

theorem occ_int (n g : Nat) (v : Int) : occ n (intField g v) = if g = n ∧ v ≠ 0 then [.varint (enc64 v)] else [] := by
  unfold occ intField
  by_cases h : g = n <;> by_cases h' : v = 0 <;> simp [h, h']

theorem occ_dbl (n g : Nat) (x : F64) : occ n (dblField g x) = if g = n ∧ x ≠ 0 then [.fixed64 x] else [] := by
  unfold occ dblField
  by_cases h : g = n <;> by_cases h' : x = 0
  · rw [if_pos h', if_neg (fun k => k.2 h')]; rfl
  · rw [if_neg h', if_pos ⟨h, h'⟩]; simp [h]
  · rw [if_pos h', if_neg (fun k => k.2 h')]; rfl
  · rw [if_neg h', if_neg (fun k => h k.1)]; simp [h]

theorem occ_msg (n g : Nat) (o : Option (List Field)) :
    occ n (msgField g o) = if g = n then o.toList.map (fun m => .len (ser m)) else [] := by
  unfold occ msgField
  by_cases h : g = n <;> cases o <;> simp [h]

/-- The simplifications that pick out one field of what an encoder (`d`) writes. -/
macro "occs " d:ident : tactic => `(tactic| (unfold $d; simp only [occ_append, occ_rep, occ_map, occ_str, occ_int, occ_dbl, occ_msg, extF,
  reduceIte, Nat.reduceEqDiff, OfNat.one_ne_ofNat, OfNat.ofNat_ne_one, eq_self, true_and, false_and, if_false, if_true,
  List.append_nil, List.nil_append]))

theorem small_of_occ {n : Nat} {fs : List Field} {s : Str} (h : WVal.len s ∈ occ n fs) (hs : Small (ser fs)) : Small s := by
  obtain ⟨p, hp, e⟩ := List.mem_map.1 h
  exact small_of_mem (n := p.1) (by rw [← e]; exact (List.mem_filter.1 hp).1) hs

theorem text_ok {n : Nat} {fs : List Field} {s : Str} (h : occ n fs = if s ≠ [] then [.len s] else []) : TextVal s (occ n fs) := by
  rw [h]
  by_cases hs : s = []
  · exact ⟨.inr ⟨hs, by simp [hs, contents]⟩, by simp [hs, contents]⟩
  · exact ⟨.inl ⟨[], by simp [hs, contents]⟩, by simp [hs, contents]⟩

theorem enc64_cut {bits : Nat} (hb : bits ≤ 64) (v : Int) : ∃ j : Int, (enc64 v : Int) = v + j * 2 ^ bits := by
  have h := Int.emod_add_mul_ediv v (2 ^ 64)
  have h0 : 0 ≤ v % 2 ^ 64 := Int.emod_nonneg _ (by decide)
  have he : (2 : Int) ^ 64 = 2 ^ (64 - bits) * 2 ^ bits := by rw [← Int.pow_add, Nat.sub_add_cancel hb]
  refine ⟨-(v / 2 ^ 64) * 2 ^ (64 - bits), ?_⟩
  rw [Int.mul_assoc, ← he]
  unfold enc64
  rw [Int.toNat_of_nonneg h0]
  rw [Int.neg_mul, Int.mul_comm (v / 2 ^ 64)]
  omega

theorem num_ok {n : Nat} {fs : List Field} {v : Int} {bits : Nat} (h : occ n fs = if v ≠ 0 then [.varint (enc64 v)] else [])
    (hb : bits ≤ 64 := by decide) : NumVal bits v (occ n fs) := by
  rw [h]
  by_cases hv : v = 0
  · exact ⟨0, .inr ⟨rfl, by simp [hv, numbers]⟩, 0, by simp [hv]⟩
  · exact ⟨enc64 v, .inl ⟨[], by simp [hv, numbers]⟩, enc64_cut hb v⟩

theorem double_ok {n : Nat} {fs : List Field} {x : F64} (h : occ n fs = if x ≠ 0 then [.fixed64 x] else []) :
    DoubleVal x (occ n fs) := by
  rw [h]
  by_cases hx : x = 0
  · exact .inr ⟨hx, by rw [if_neg (fun k => k hx)]; rfl⟩
  · exact .inl ⟨[], by rw [if_pos hx]; rfl⟩

/-- What the encoder `enc` writes encodes the value as `R` says. -/
def Enc {α : Type} (R : α → Str → Prop) (enc : α → List Field) : Prop :=
  ∀ v, Small (ser (enc v)) → IsMessage (ser (enc v)) ∧ R v (ser (enc v))

theorem enc_of {α : Type} {enc : α → List Field} {P : α → List Field → Prop} (hp : ∀ v, ∀ p ∈ enc v, Plain p)
    (h : ∀ v, Small (ser (enc v)) → P v (enc v)) : Enc (fun v b => ∃ fs, MessageBytes fs b ∧ P v fs) enc :=
  fun v hs => have := messageBytes_ser _ (hp v) hs; ⟨⟨_, this⟩, _, this, h v hs⟩

theorem pieces_ok {α : Type} {R : α → Str → Prop} {enc : α → List Field} (h : Enc R enc) {v : α} (hs : Small (ser (enc v))) :
    Pieces R v [ser (enc v)] [.len (ser (enc v))] := by
  obtain ⟨h1, h2⟩ := h v hs
  exact ⟨rfl, by simpa using h1, by simpa using h2⟩

theorem msg_ok {α : Type} {R : α → Str → Prop} {enc : α → List Field} (h : Enc R enc) {o : Option α} {n : Nat} {fs : List Field}
    (ho : occ n fs = (o.map enc).toList.map (fun m => .len (ser m))) (hs : Small (ser fs)) : MsgVal R o (occ n fs) := by
  cases o with
  | none => show contents _ = []; rw [ho]; rfl
  | some v =>
    have := small_of_occ (s := ser (enc v)) (by rw [ho]; simp) hs
    rw [ho]
    exact ⟨_, by simp, pieces_ok h this⟩

theorem msgs_ok {α : Type} {R : α → Str → Prop} {enc : α → List Field} (h : Enc R enc) {l : List α} {n : Nat} {fs : List Field}
    (ho : occ n fs = (l.map fun v => ser (enc v)).map .len) (hs : Small (ser fs)) : MsgsVal R l (occ n fs) := by
  have : ∀ v ∈ l, Small (ser (enc v)) := fun v hv => small_of_occ (n := n) (fs := fs) (by rw [ho, List.map_map]; exact List.mem_map_of_mem hv) hs
  unfold MsgsVal
  rw [ho, contents_map]
  clear ho
  induction l with
  | nil => exact .nil
  | cons v l ih =>
    rw [List.forall_mem_cons] at this
    exact .cons (h v this.1).2 (ih this.2)

theorem map_ok {V : Type} {T : V → Prop} {R : V → List WVal → Prop} {val : V → WVal} (hv : ∀ v, Plain (2, val v))
    (h : ∀ v, (∀ s, val v = .len s → Small s) → R v [val v]) {m : GoMap V} {n : Nat} {fs : List Field}
    (ho : occ n fs = m.map fun e => .len (ser [(1, .len e.1), (2, val e.2)])) (hs : Small (ser fs)) : MapVal T R m (occ n fs) := by
  have : ∀ e ∈ m, Small (ser [(1, .len e.1), (2, val e.2)]) := fun e he => small_of_occ (n := n) (fs := fs)
    (by rw [ho]; exact List.mem_map_of_mem (f := fun e => WVal.len (ser [(1, .len e.1), (2, val e.2)])) he) hs
  refine ⟨m, ?_, mapOf_self m⟩
  have ho' : occ n fs = (m.map fun e => ser [(1, .len e.1), (2, val e.2)]).map .len := by rw [ho, List.map_map]; rfl
  unfold MsgsVal
  rw [ho', contents_map]
  clear ho ho'
  induction m with
  | nil => exact .nil
  | cons e m ih =>
    rw [List.forall_mem_cons] at this
    refine .cons ⟨_, messageBytes_ser _ ?_ this.1, ⟨.inl ⟨[], rfl⟩, by simp [occ, contents]⟩, ?_⟩ (ih this.2)
    · simp only [List.forall_mem_cons]
      exact ⟨plain_len (by decide) _, hv _, by simp⟩
    · exact h e.2 fun s hs' => small_of_mem (n := 2) (by rw [← hs']; simp) this.1

theorem ext_ok' {V : Type} {T : V → Prop} {R : V → Str → Prop} {enc : V → List Field} (h : Enc R enc) {m : GoMap V} {n : Nat} {fs : List Field}
    (ho : occ n fs = m.map fun e => .len (ser [(1, .len e.1), (2, .len (ser (enc e.2)))])) (hs : Small (ser fs)) :
    MapVal T (MsgInMap R) m (occ n fs) :=
  map_ok (val := fun v => .len (ser (enc v))) (fun v => plain_len (by decide) _) (fun _ hv => ⟨_, pieces_ok h (hv _ rfl)⟩) ho hs

theorem timestamp_ok : Enc IsTimestamp timestampF := by
  refine enc_of (fun v => by plain timestampF) fun t _ => ⟨⟨1, by decide +kernel, num_ok ?_⟩, ⟨2, by decide +kernel, num_ok ?_⟩⟩ <;> occs timestampF

theorem any_ok : Enc IsAny anyF := by
  refine enc_of (fun v => by plain anyF) fun a _ => ⟨⟨1, by decide +kernel, text_ok ?_⟩, ⟨2, by decide +kernel, (text_ok ?_).1⟩⟩ <;>
    occs anyF

theorem data_ok : Enc IsData dataF := by
  refine enc_of (fun v => by plain dataF) fun d h => ⟨⟨1, by decide +kernel, ?_⟩,
    ⟨2, by decide +kernel, map_ok (val := .len) (fun v => plain_len (by decide) v) (fun _ _ => ⟨.inl ⟨[], rfl⟩, by simp [contents]⟩) ?_ h⟩,
    ⟨3, by decide +kernel, map_ok (val := .fixed64) (fun v => plain_dbl' (by decide) v) (fun _ _ => .inl ⟨[], rfl⟩) ?_ h⟩,
    ⟨4, by decide +kernel, msg_ok timestamp_ok ?_ h⟩⟩
  · have : occ 1 (dataF d) = d.tags.map .len := by occs dataF
    show contents _ = _
    rw [this, contents_map]
  all_goals occs dataF

theorem ticket_ok : Enc IsTicket ticketF := by
  refine enc_of (fun v => by plain ticketF) fun t h => ⟨⟨1, by decide +kernel, text_ok ?_⟩,
    ⟨2, by decide +kernel, msg_ok timestamp_ok ?_ h⟩, ⟨3, by decide +kernel, msg_ok data_ok ?_ h⟩,
    ⟨4, by decide +kernel, ext_ok' any_ok ?_ h⟩⟩ <;> occs ticketF

theorem assignment_ok : Enc IsAssignment assignmentF := by
  refine enc_of (fun v => by plain assignmentF) fun a h => ⟨⟨1, by decide +kernel, text_ok ?_⟩,
    ⟨2, by decide +kernel, ext_ok' any_ok ?_ h⟩⟩ <;> occs assignmentF

theorem roster_ok : Enc IsRoster rosterF := by
  refine enc_of (fun v => by plain rosterF) fun r h => ⟨⟨1, by decide +kernel, text_ok ?_⟩,
    ⟨2, by decide +kernel, msg_ok assignment_ok ?_ h⟩, ⟨3, by decide +kernel, msgs_ok ticket_ok ?_ h⟩,
    ⟨4, by decide +kernel, ext_ok' any_ok ?_ h⟩⟩ <;> occs rosterF

theorem tagFilter_ok : Enc IsTagFilter tagFilterF := by
  refine enc_of (fun v => by plain tagFilterF) fun f _ => ⟨1, by decide +kernel, text_ok ?_⟩
  occs tagFilterF

theorem stringFilter_ok : Enc IsStringFilter strFilterF := by
  refine enc_of (fun v => by plain strFilterF) fun f _ => ⟨⟨1, by decide +kernel, text_ok ?_⟩, ⟨2, by decide +kernel, text_ok ?_⟩⟩ <;>
    occs strFilterF

theorem doubleFilter_ok : Enc IsDoubleFilter dblFilterF := by
  refine enc_of (fun v => by plain dblFilterF) fun f _ => ⟨⟨1, by decide +kernel, text_ok ?_⟩, ⟨2, by decide +kernel, double_ok ?_⟩,
    ⟨3, by decide +kernel, double_ok ?_⟩, ⟨4, by decide +kernel, num_ok ?_⟩⟩ <;> occs dblFilterF

theorem timeFilter_ok : Enc IsTimeFilter ctFilterF := by
  refine enc_of (fun v => by plain ctFilterF) fun f h => ⟨⟨6, by decide +kernel, msg_ok timestamp_ok ?_ h⟩,
    ⟨7, by decide +kernel, msg_ok timestamp_ok ?_ h⟩, ⟨4, by decide +kernel, num_ok ?_⟩⟩ <;> occs ctFilterF

theorem pool_ok : Enc IsPool poolF := by
  refine enc_of (fun v => by plain poolF) fun p h => ⟨⟨1, by decide +kernel, text_ok ?_⟩, ⟨2, by decide +kernel, msgs_ok tagFilter_ok ?_ h⟩,
    ⟨3, by decide +kernel, msgs_ok stringFilter_ok ?_ h⟩, ⟨4, by decide +kernel, msgs_ok doubleFilter_ok ?_ h⟩,
    ⟨5, by decide +kernel, msg_ok timeFilter_ok ?_ h⟩, ⟨6, by decide +kernel, msg_ok roster_ok ?_ h⟩,
    ⟨7, by decide +kernel, ext_ok' any_ok ?_ h⟩⟩ <;> occs poolF

theorem profile_ok : Enc IsProfile profileF := by
  refine enc_of (fun v => by plain profileF) fun p h => ⟨⟨1, by decide +kernel, text_ok ?_⟩, ⟨2, by decide +kernel, ext_ok' pool_ok ?_ h⟩,
    ⟨3, by decide +kernel, ext_ok' any_ok ?_ h⟩⟩ <;> occs profileF

theorem match_ok : Enc IsMatch matchF := by
  refine enc_of (fun v => by plain matchF) fun m h => ⟨⟨1, by decide +kernel, text_ok ?_⟩, ⟨2, by decide +kernel, ext_ok' roster_ok ?_ h⟩,
    ⟨3, by decide +kernel, ext_ok' any_ok ?_ h⟩⟩ <;> occs matchF

theorem spec_ok : Enc IsSpec specF := by
  refine enc_of (fun v => by plain specF) fun s _ => ⟨⟨1, by decide +kernel, text_ok ?_⟩, ⟨2, by decide +kernel, text_ok ?_⟩,
    ⟨3, by decide +kernel, num_ok ?_⟩, ⟨4, by decide +kernel, num_ok ?_⟩⟩ <;> occs specF

end OM.Wire
