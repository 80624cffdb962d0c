import Verif.Lemmas.Schema
import Verif.Props.Text
/-! # Lemmas on what is refused (`receive`) -/
namespace OM.Wire
open OM.Spec OM.Props

/-! ## Fields -/

theorem varint_get {s : Str} : ∀ {n : Nat} {rest : Str}, getVarint s = some (n, rest) → ∃ a, Varint a n ∧ s = a ++ rest := by
  induction s with
  | nil => intro n rest h; cases h
  | cons c s ih =>
    intro n rest h
    unfold getVarint at h
    split at h
    · cases h
      exact ⟨[c], .last ‹_›, rfl⟩
    · cases hg : getVarint s with
      | none => rw [hg] at h; cases h
      | some p =>
        obtain ⟨m, r⟩ := p
        rw [hg] at h
        cases h
        obtain ⟨a, ha, rfl⟩ := ih hg
        exact ⟨c :: a, .more (by omega) ha, rfl⟩

theorem shortVarint_of {a : Str} {n : Nat} (h : Varint64 a n) (rest : Str) : shortVarint (a ++ rest) = some (n, rest) := by
  unfold shortVarint
  have hl : (a ++ rest).length ≤ rest.length + 10 := by
    have := h.2.1
    rw [List.length_append]; omega
  rw [getVarint_of h.1, Option.bind_some, if_pos ⟨hl, h.2.2⟩]

theorem shortVarint_get {s rest : Str} {n : Nat} (h : shortVarint s = some (n, rest)) :
    getVarint s = some (n, rest) ∧ ∃ a, Varint64 a n ∧ s = a ++ rest := by
  unfold shortVarint at h
  cases hg : getVarint s with
  | none => rw [hg] at h; cases h
  | some p =>
    rw [hg, Option.bind_some] at h
    split at h
    · rename_i hl
      cases h
      obtain ⟨a, ha, rfl⟩ := varint_get hg
      refine ⟨rfl, a, ⟨ha, ?_, hl.2⟩, rfl⟩
      have := hl.1
      simp only [List.length_append] at this
      omega
    · cases h

theorem inLimits_of {f : Field} {a : Str} (h : FieldBytes f a) (rest : Str) : inLimits (a ++ rest) = true := by
  have key : ∀ {n ty : Nat} {tag : Str} (r : Str), ty < 8 → Tag tag n ty → ((ty = 0 ∨ ty = 2) → (shortVarint r).isSome = true) →
      inLimits (tag ++ r) = true := by
    intro n ty tag r hty ht hr
    unfold inLimits
    rw [shortVarint_of ht.1]
    have h1 := ht.2.1
    have h2 := ht.2.2
    have e : (8 * n + ty) % 8 = ty := by omega
    simp only [e, Bool.and_eq_true, decide_eq_true_eq, Bool.or_eq_true, bne_iff_ne]
    refine ⟨⟨by omega, by omega⟩, ?_⟩
    by_cases h0 : ty = 0 ∨ ty = 2
    · exact .inr (hr h0)
    · exact .inl ⟨fun h => h0 (.inl h), fun h => h0 (.inr h)⟩
  cases h with
  | varint h1 h2 => rw [List.append_assoc]; exact key _ (by decide) h1 fun _ => by rw [shortVarint_of h2]; rfl
  | fixed64 h1 _ _ => rw [List.append_assoc]; exact key _ (by decide) h1 fun h => by simp at h
  | fixed32 h1 _ _ => rw [List.append_assoc]; exact key _ (by decide) h1 fun h => by simp at h
  | len h1 h2 =>
    rw [List.append_assoc]
    exact key _ (by decide) h1 fun _ => by rw [List.append_assoc, shortVarint_of h2]; rfl

theorem leValue_lt {s : Str} (h : IsBytes s) : leValue s < 256 ^ s.length := by
  induction s with
  | nil => simp [leValue]
  | cons c s ih =>
    have h1 := ih fun x hx => h x (List.mem_cons_of_mem _ hx)
    have h2 := h c List.mem_cons_self
    rw [leValue, List.length_cons, Nat.pow_succ]
    omega

theorem take_drop {s : Str} {k : Nat} (h : ¬ s.length < k) : ∃ p r, s = p ++ r ∧ p.length = k ∧ s.take k = p ∧ s.drop k = r :=
  ⟨s.take k, s.drop k, (List.take_append_drop k s).symm, by rw [List.length_take]; omega, rfl, rfl⟩

theorem fieldBytes_get {s rest : Str} {f : Field} (hb : IsBytes s) (hl : inLimits s = true) (h : getField s = some (f, rest)) :
    ∃ a, FieldBytes f a ∧ s = a ++ rest := by
  unfold inLimits at hl
  cases ht : shortVarint s with
  | none => rw [ht] at hl; cases hl
  | some p =>
    obtain ⟨tag, r⟩ := p
    rw [ht] at hl
    obtain ⟨hg, t, h64, rfl⟩ := shortVarint_get ht
    unfold getField at h
    rw [hg] at h
    simp only [Bool.and_eq_true, decide_eq_true_eq, Bool.or_eq_true, bne_iff_ne] at hl
    obtain ⟨⟨hl1, hl2⟩, hl3⟩ := hl
    have hbr : IsBytes r := fun c hc => hb c (List.mem_append_right _ hc)
    have htag : ∀ ty, tag % 8 = ty → Tag t (tag / 8) ty := by
      intro ty e
      refine ⟨?_, by omega, by omega⟩
      rwa [show 8 * (tag / 8) + ty = tag by omega]
    simp only at h
    split at h
    · rename_i h0
      have hsome : (shortVarint r).isSome = true := hl3.resolve_left fun h => h.1 h0
      obtain ⟨⟨n, r'⟩, hv⟩ := Option.isSome_iff_exists.1 hsome
      obtain ⟨hg', p, hp, rfl⟩ := shortVarint_get hv
      rw [hg', Option.map_some] at h
      cases h
      exact ⟨t ++ p, .varint (htag 0 h0) hp, by rw [List.append_assoc]⟩
    · split at h
      · rename_i h1
        split at h
        · cases h
        · rename_i hlen
          obtain ⟨p, r', rfl, hpl, e1, e2⟩ := take_drop hlen
          rw [e1, e2] at h
          cases h
          refine ⟨t ++ p, .fixed64 (htag 1 h1) hpl ?_, by rw [List.append_assoc]⟩
          have := leValue_lt (s := p) fun c hc => hbr c (List.mem_append_left _ hc)
          rw [hpl] at this
          rw [BitVec.toNat_ofNat, ← leValue_eq, Nat.mod_eq_of_lt (Nat.lt_of_lt_of_eq this (by decide))]
      · split at h
        · rename_i h2
          have hsome : (shortVarint r).isSome = true := hl3.resolve_left fun h => h.2 h2
          obtain ⟨⟨n, r'⟩, hv⟩ := Option.isSome_iff_exists.1 hsome
          obtain ⟨hg', p, hp, rfl⟩ := shortVarint_get hv
          rw [hg'] at h
          simp only at h
          split at h
          · cases h
          · rename_i hlen
            obtain ⟨q, r'', rfl, hql, e1, e2⟩ := take_drop hlen
            rw [e1, e2] at h
            cases h
            refine ⟨t ++ (p ++ q), .len (htag 2 h2) (by rwa [hql]), by simp only [List.append_assoc]⟩
        · split at h
          · rename_i h5
            split at h
            · cases h
            · rename_i hlen
              obtain ⟨p, r', rfl, hpl, e1, e2⟩ := take_drop hlen
              rw [e1, e2] at h
              cases h
              refine ⟨t ++ p, .fixed32 (htag 5 h5) hpl ?_, by rw [List.append_assoc]⟩
              have := leValue_lt (s := p) fun c hc => hbr c (List.mem_append_left _ hc)
              rw [hpl] at this
              rw [BitVec.toNat_ofNat, ← leValue_eq, Nat.mod_eq_of_lt (Nat.lt_of_lt_of_eq this (by decide))]
          · cases h

theorem fields_of {fs : List Field} {b : Str} (h : MessageBytes fs b) : fields b = some fs := by
  unfold fields
  have : ∀ fuel, fs.length ≤ fuel → fieldsF fuel b = some fs := by
    induction h with
    | nil => intro fuel _; cases fuel <;> rfl
    | cons h _ ih =>
      intro fuel hf
      cases fuel with
      | zero => simp at hf
      | succ fuel =>
        unfold fieldsF
        rw [if_neg (by simp [fieldBytes_ne_nil h]), if_pos (inLimits_of h _), getField_of h]
        simp only [ih fuel (by simpa using hf)]
        rfl
  exact this _ (messageBytes_length h)

theorem messageBytes_get {b : Str} (hb : IsBytes b) {fs : List Field} (h : fields b = some fs) : MessageBytes fs b := by
  unfold fields at h
  have : ∀ fuel s fs, IsBytes s → fieldsF fuel s = some fs → MessageBytes fs s := by
    intro fuel
    induction fuel with
    | zero =>
      intro s fs _ h
      unfold fieldsF at h
      split at h
      · rename_i e; cases h; subst e; exact .nil
      · cases h
    | succ fuel ih =>
      intro s fs hs h
      unfold fieldsF at h
      split at h
      · rename_i e; cases h; subst e; exact .nil
      · split at h
        · rename_i hl
          cases hg : getField s with
          | none => rw [hg] at h; cases h
          | some p =>
            obtain ⟨f, rest⟩ := p
            rw [hg] at h
            obtain ⟨a, ha, rfl⟩ := fieldBytes_get hs hl hg
            simp only at h
            cases hr : fieldsF fuel rest with
            | none => rw [hr] at h; cases h
            | some gs =>
              rw [hr] at h
              cases h
              exact .cons ha (ih _ _ (fun c hc => hs c (List.mem_append_right _ hc)) hr)
        · cases h
  exact this _ _ _ hb h

theorem fieldBytes_content {f : Field} {a : Str} (h : FieldBytes f a) (hb : IsBytes a) : ∀ s, f.2 = .len s → IsBytes s := by
  intro s e
  cases h with
  | len h1 h2 => cases e; exact fun c hc => hb c (by simp [hc])
  | _ => cases e

theorem messageBytes_content {fs : List Field} {b : Str} (h : MessageBytes fs b) (hb : IsBytes b) :
    ∀ f ∈ fs, ∀ s, f.2 = .len s → IsBytes s := by
  induction h with
  | nil => simp
  | cons h _ ih =>
    rw [List.forall_mem_cons]
    exact ⟨fieldBytes_content h fun c hc => hb c (List.mem_append_left _ hc), ih fun c hc => hb c (List.mem_append_right _ hc)⟩

theorem mem_lens {n : Nat} {fs : List Field} {s : Str} : s ∈ lens n fs ↔ (n, WVal.len s) ∈ fs := by
  unfold lens
  rw [List.mem_filterMap]
  constructor
  · rintro ⟨⟨g, v⟩, hp, h⟩
    cases v with
    | len x =>
      simp only at h
      split at h
      · rename_i e; cases h; rw [← e]; exact hp
      · cases h
    | _ => cases h
  · exact fun h => ⟨_, h, if_pos rfl⟩

theorem readable_iff {subs : Content} {fs : List Field} :
    readable subs fs = true ↔ ∀ q ∈ subs, ∀ s ∈ lens q.1 fs, q.2 s = true := by
  unfold readable
  rw [List.all_eq_true]
  constructor
  · intro h q hq s hs
    have := h _ (mem_lens.1 hs)
    simp only [List.all_eq_true] at this
    simpa using this q hq
  · rintro h ⟨g, v⟩ hp
    cases v with
    | len s =>
      simp only [List.all_eq_true, Bool.or_eq_true, bne_iff_ne]
      intro q hq
      by_cases e : q.1 = g
      · exact .inr (h q hq s (mem_lens.2 (e ▸ hp)))
      · exact .inl e
    | _ => rfl

/-- A message whose strings and messages can be read. -/
theorem wellFormed_of {subs : Content} {fs : List Field} {b : Str} (hb : MessageBytes fs b) :
    wellFormed subs b = true ↔ ∀ q ∈ subs, ∀ s ∈ lens q.1 fs, q.2 s = true := by
  unfold wellFormed
  rw [fields_of hb]
  exact readable_iff

theorem wellFormed_get {subs : Content} {b : Str} (hb : IsBytes b) (h : wellFormed subs b = true) :
    MessageBytes (parse b) b ∧ (∀ n, ∀ s ∈ lens n (parse b), IsBytes s) ∧ ∀ q ∈ subs, ∀ s ∈ lens q.1 (parse b), q.2 s = true := by
  unfold wellFormed at h
  cases hf : fields b with
  | none => rw [hf] at h; cases h
  | some fs =>
    rw [hf] at h
    have hm := messageBytes_get hb hf
    rw [parse_of hm]
    exact ⟨hm, fun n s hs => messageBytes_content hm hb _ (mem_lens.1 hs) s rfl, readable_iff.1 h⟩

theorem lens_flatMap (n : Nat) (bs : List Str) : lens n (bs.flatMap parse) = bs.flatMap fun b => lens n (parse b) := by
  induction bs with
  | nil => rfl
  | cons b bs ih =>
    rw [List.flatMap_cons, List.flatMap_cons, ← ih]
    simp [lens]

/-- Pieces can be read exactly if all of them together can. -/
theorem wellFormed_flatten {subs : Content} {bs : List Str} (h : ∀ b ∈ bs, IsMessage b) :
    wellFormed subs bs.flatten = true ↔ ∀ b ∈ bs, wellFormed subs b = true := by
  obtain ⟨e, fs, hf⟩ := parse_flatten h
  have e' := parse_of hf
  rw [wellFormed_of hf, ← e', e]
  constructor
  · intro hq b hb
    obtain ⟨gs, hg⟩ := h b hb
    rw [wellFormed_of hg]
    intro q hq' s hs
    refine hq q hq' s ?_
    rw [lens_flatMap]
    exact List.mem_flatMap.2 ⟨b, hb, by rw [parse_of hg]; exact hs⟩
  · intro hall q hq s hs
    rw [lens_flatMap] at hs
    obtain ⟨b, hb, hs⟩ := List.mem_flatMap.1 hs
    obtain ⟨gs, hg⟩ := h b hb
    rw [parse_of hg] at hs
    exact (wellFormed_of hg).1 (hall b hb) q hq s hs

/-! ## What is accepted -/

/-- Bytes that are accepted encode what is read from them, and that is as `ok` says. -/
def Snd {α : Type} (R : α → Str → Prop) (subs : Content) (dec : List Field → α) (ok : α → Prop) : Prop :=
  ∀ b, IsBytes b → wellFormed subs b = true → R (dec (parse b)) b ∧ ok (dec (parse b))

/-- Every encoding of a value that is as `ok` says is accepted. -/
def Cpl {α : Type} (R : α → Str → Prop) (subs : Content) (ok : α → Prop) : Prop :=
  ∀ v b, R v b → ok v → wellFormed subs b = true

section Accepted
variable {n : Nat} {fs : List Field}

theorem getLast_mem {s : Str} {l : List Str} (h : l.getLast?.getD [] = s) : s ∈ l ∨ s = [] := by
  rcases List.eq_nil_or_concat l with rfl | ⟨l', x, rfl⟩
  · exact .inr (by simpa using h.symm)
  · left; simp at h; simp [h]

theorem text_snd (h : ∀ s ∈ lens n fs, utf8Valid s = true) : TextVal (getStr n fs) (occ n fs) ∧ IsText (getStr n fs) := by
  have e : (lens n fs).getLast?.getD [] = getStr n fs := rfl
  refine ⟨⟨last_getD.2 (by rw [← lens_occ]; rfl), fun x hx => (utf8Valid_iff x).1 (h x ?_)⟩, ?_⟩
  · rw [lens_occ]; exact List.dropLast_subset _ hx
  · rcases getLast_mem e with hm | hm
    · exact (utf8Valid_iff _).1 (h _ hm)
    · rw [hm]; exact ⟨[], rfl⟩

theorem bytes_snd (h : ∀ s ∈ lens n fs, IsBytes s) : BytesVal (getStr n fs) (occ n fs) ∧ IsBytes (getStr n fs) := by
  have e : (lens n fs).getLast?.getD [] = getStr n fs := rfl
  refine ⟨last_getD.2 (by rw [← lens_occ]; rfl), ?_⟩
  rcases getLast_mem e with hm | hm
  · exact h _ hm
  · rw [hm]; simp [IsBytes]

theorem dbl_snd : DoubleVal (getDbl n fs) (occ n fs) := last_getD.2 (by rw [← dbls_occ]; rfl)

theorem last_exists (l : List Nat) : ∃ k, Last 0 k l := ⟨_, last_getD.2 rfl⟩

theorem num64_snd : NumVal 64 (getInt64 n fs) (occ n fs) ∧ -2 ^ 63 ≤ getInt64 n fs ∧ getInt64 n fs < 2 ^ 63 := by
  obtain ⟨k, hk⟩ := last_exists (numbers (occ n fs))
  have e : getInt64 n fs = dec64 k := by
    unfold getInt64
    rw [ints_occ, map_getD (by decide) hk]
  rw [e]
  have hd := Nat.div_add_mod k (2 ^ 64)
  have hl : k % 2 ^ 64 < 2 ^ 64 := Nat.mod_lt _ (by decide)
  unfold dec64
  split
  · exact ⟨⟨k, hk, ((k / 2 ^ 64 : Nat) : Int), by omega⟩, by omega, by omega⟩
  · exact ⟨⟨k, hk, ((k / 2 ^ 64 : Nat) : Int) + 1, by omega⟩, by omega, by omega⟩

theorem num32_snd : NumVal 32 (getInt32 n fs) (occ n fs) ∧ GoInt32 (getInt32 n fs) := by
  obtain ⟨k, hk⟩ := last_exists (numbers (occ n fs))
  have e : getInt32 n fs = dec32 k := by
    unfold getInt32
    rw [ints_occ, map_getD (by decide) hk]
  rw [e]
  have hd := Nat.div_add_mod k (2 ^ 32)
  have hl : k % 2 ^ 32 < 2 ^ 32 := Nat.mod_lt _ (by decide)
  unfold dec32 GoInt32
  split
  · exact ⟨⟨k, hk, ((k / 2 ^ 32 : Nat) : Int), by omega⟩, by omega, by omega⟩
  · exact ⟨⟨k, hk, ((k / 2 ^ 32 : Nat) : Int) + 1, by omega⟩, by omega, by omega⟩

variable {α : Type} {R : α → Str → Prop} {subs : Content} {dec : List Field → α} {ok : α → Prop}

theorem pieces_snd (hd : Snd R subs dec ok) {bs : List Str} (hb : ∀ s ∈ bs, IsBytes s) (h : ∀ s ∈ bs, wellFormed subs s = true) :
    (∀ s ∈ bs, IsMessage s) ∧ R (dec (bs.flatMap parse)) bs.flatten ∧ ok (dec (bs.flatMap parse)) := by
  have hm : ∀ s ∈ bs, IsMessage s := fun s hs => ⟨_, (wellFormed_get (hb s hs) (h s hs)).1⟩
  have hf : IsBytes bs.flatten := by
    intro c hc
    obtain ⟨s, hs, hc⟩ := List.mem_flatten.1 hc
    exact hb s hs c hc
  rw [← (parse_flatten hm).1]
  exact ⟨hm, hd _ hf ((wellFormed_flatten hm).2 h)⟩

theorem msg_snd (hd : Snd R subs dec ok) (hb : ∀ s ∈ lens n fs, IsBytes s) (h : ∀ s ∈ lens n fs, wellFormed subs s = true) :
    MsgVal R ((getMsg n fs).map dec) (occ n fs) ∧ ∀ v, (getMsg n fs).map dec = some v → ok v := by
  obtain ⟨h1, h2, h3⟩ := pieces_snd hd hb h
  unfold getMsg merge
  cases hl : lens n fs with
  | nil => exact ⟨by rw [lens_occ] at hl; exact hl, by simp⟩
  | cons x l =>
    rw [hl] at h1 h2 h3
    refine ⟨⟨x :: l, by simp, by rw [← lens_occ]; exact hl, h1, h2⟩, ?_⟩
    rintro v e
    cases e
    exact h3

theorem msgs_snd (hd : Snd R subs dec ok) (hb : ∀ s ∈ lens n fs, IsBytes s) (h : ∀ s ∈ lens n fs, wellFormed subs s = true) :
    MsgsVal R (getMsgs n fs dec) (occ n fs) ∧ ∀ v ∈ getMsgs n fs dec, ok v := by
  unfold MsgsVal getMsgs
  rw [← lens_occ]
  generalize lens n fs = bs at hb h
  induction bs with
  | nil => exact ⟨.nil, by simp⟩
  | cons b bs ih =>
    rw [List.forall_mem_cons] at hb h
    obtain ⟨i1, i2⟩ := ih hb.2 h.2
    obtain ⟨j1, j2⟩ := hd b hb.1 h.1
    exact ⟨.cons j1 i1, by rw [List.map_cons, List.forall_mem_cons]; exact ⟨j2, i2⟩⟩

variable {V : Type} {T : V → Prop} {Q : V → List WVal → Prop} {val : List Field → V} {c : Str → Bool}

theorem map_snd (hv : ∀ gs : List Field, (∀ s ∈ lens 2 gs, IsBytes s) → (∀ s ∈ lens 2 gs, c s = true) → Q (val gs) (occ 2 gs) ∧ T (val gs))
    (hb : ∀ s ∈ lens n fs, IsBytes s) (h : ∀ s ∈ lens n fs, wellFormed (entryC c) s = true) :
    MapVal T Q (getMap n fs val) (occ n fs) ∧ ((getMap n fs val).map (·.1)).Nodup ∧ ∀ e ∈ getMap n fs val, IsText e.1 ∧ T e.2 := by
  rw [getMap_last]
  have key : List.Forall₂ (EntryVal Q) ((lens n fs).map fun s => (getStr 1 (parse s), val (parse s))) (lens n fs) ∧
      ∀ e ∈ (lens n fs).map fun s => (getStr 1 (parse s), val (parse s)), IsText e.1 ∧ T e.2 := by
    generalize lens n fs = bs at hb h
    induction bs with
    | nil => exact ⟨.nil, by simp⟩
    | cons b bs ih =>
      rw [List.forall_mem_cons] at hb h
      obtain ⟨i1, i2⟩ := ih hb.2 h.2
      obtain ⟨w1, w2, w3⟩ := wellFormed_get hb.1 h.1
      simp only [entryC, List.forall_mem_cons] at w3
      obtain ⟨t1, t2⟩ := text_snd w3.1
      obtain ⟨v1, v2⟩ := hv _ (w2 2) w3.2.1
      rw [List.map_cons, List.forall_mem_cons]
      exact ⟨.cons ⟨_, w1, t1, v1⟩ i1, ⟨t2, v2⟩, i2⟩
  refine ⟨⟨_, ?_, mapOf_last fun e he => (key.2 e he).2⟩, lastEntries_nodup _, fun e he => key.2 e (lastEntries_mem he)⟩
  unfold MsgsVal
  rw [← lens_occ]
  exact key.1

theorem msgInMap_snd (hd : Snd R subs dec ok) (gs : List Field) (hb : ∀ s ∈ lens 2 gs, IsBytes s)
    (h : ∀ s ∈ lens 2 gs, wellFormed subs s = true) :
    MsgInMap R (dec ((getMsg 2 gs).getD [])) (occ 2 gs) ∧ ok (dec ((getMsg 2 gs).getD [])) := by
  obtain ⟨h1, h2, h3⟩ := pieces_snd hd hb h
  have e : (getMsg 2 gs).getD [] = (lens 2 gs).flatMap parse := by
    unfold getMsg merge
    cases lens 2 gs <;> rfl
  rw [e]
  exact ⟨⟨lens 2 gs, (lens_occ 2 gs).symm, h1, h2⟩, h3⟩

/-! ## What must be accepted -/

theorem last_split {s : Str} {l : List Str} (h : Last [] s l) {x : Str} (hx : x ∈ l) : x = s ∨ x ∈ l.dropLast := by
  rcases h with ⟨l', rfl⟩ | ⟨-, rfl⟩
  · rw [List.mem_append, List.mem_singleton] at hx
    rw [List.dropLast_concat]
    exact hx.symm
  · cases hx

theorem text_cpl {s : Str} (h : TextVal s (occ n fs)) (hs : IsText s) : ∀ x ∈ lens n fs, utf8Valid x = true := by
  intro x hx
  rw [lens_occ] at hx
  rw [utf8Valid_iff]
  rcases last_split h.1 hx with rfl | hx
  · exact hs
  · exact h.2 x hx

theorem texts_cpl {l : List Str} (h : TextsVal l (occ n fs)) (hs : ∀ s ∈ l, IsText s) : ∀ x ∈ lens n fs, utf8Valid x = true := by
  intro x hx
  rw [lens_occ, show contents _ = _ from h] at hx
  exact (utf8Valid_iff x).2 (hs x hx)

theorem pieces_cpl (hd : Cpl R subs ok) {v : α} {bs : List Str} {o : List WVal} (h : Pieces R v bs o) (hv : ok v) :
    ∀ s ∈ contents o, wellFormed subs s = true := by
  obtain ⟨h1, h2, h3⟩ := h
  rw [h1]
  exact (wellFormed_flatten h2).1 (hd _ _ h3 hv)

theorem msg_cpl (hd : Cpl R subs ok) {o : Option α} (h : MsgVal R o (occ n fs)) (hv : ∀ v, o = some v → ok v) :
    ∀ s ∈ lens n fs, wellFormed subs s = true := by
  rw [lens_occ]
  cases o with
  | none => rw [show contents _ = _ from h]; simp
  | some v =>
    obtain ⟨bs, -, h⟩ := h
    exact pieces_cpl hd h (hv v rfl)

theorem msgs_cpl (hd : Cpl R subs ok) {l : List α} (h : MsgsVal R l (occ n fs)) (hv : ∀ v ∈ l, ok v) :
    ∀ s ∈ lens n fs, wellFormed subs s = true := by
  rw [lens_occ]
  unfold MsgsVal at h
  generalize contents (occ n fs) = bs at h
  induction h with
  | nil => simp
  | cons h _ ih =>
    rw [List.forall_mem_cons] at hv ⊢
    exact ⟨hd _ _ h hv.1, ih hv.2⟩

theorem map_cpl (hd : ∀ v (gs : List Field), Q v (occ 2 gs) → T v → ∀ s ∈ lens 2 gs, c s = true) {m : GoMap V}
    (h : MapVal T Q m (occ n fs)) (hm : ∀ e ∈ m, IsText e.1 ∧ T e.2) : ∀ s ∈ lens n fs, wellFormed (entryC c) s = true := by
  obtain ⟨l, hl, hml⟩ := h
  have hall : ∀ e ∈ l, IsText e.1 ∧ T e.2 := by
    intro e he
    refine ⟨?_, (hml.mem_or e he).elim (fun h => (hm e h).2) id⟩
    obtain ⟨e', he', hk⟩ := List.mem_map.1 (hml.keys e.1 (List.mem_map_of_mem he))
    rw [← hk]
    exact (hm e' he').1
  rw [lens_occ]
  unfold MsgsVal at hl
  clear hml
  generalize contents (occ n fs) = bs at hl
  induction hl with
  | nil => simp
  | cons h _ ih =>
    rw [List.forall_mem_cons] at hall ⊢
    obtain ⟨gs, g1, g2, g3⟩ := h
    refine ⟨(wellFormed_of g1).2 ?_, ih hall.2⟩
    simp only [entryC, List.forall_mem_cons]
    exact ⟨text_cpl g2 hall.1.1, hd _ _ g3 hall.1.2, by simp⟩

theorem msgInMap_cpl (hd : Cpl R subs ok) (v : α) (gs : List Field) (h : MsgInMap R v (occ 2 gs)) (hv : ok v) :
    ∀ s ∈ lens 2 gs, wellFormed subs s = true := by
  obtain ⟨bs, h⟩ := h
  rw [lens_occ]
  exact pieces_cpl hd h hv

end Accepted

/-! ## The messages -/

def DataV (d : FilterableData) : Prop := (GoData d ∧ ∀ x, d.creationTime = some x → GoTime x) ∧ ∀ s ∈ dataTexts d, IsText s
def TicketV (t : Ticket) : Prop := GoSentTicket t ∧ ∀ s ∈ sentTexts t, IsText s
def AssignmentV (a : Assignment) : Prop := GoExtensions a.extensions ∧ ∀ s ∈ assignmentTexts a, IsText s
def TimeFilterV (f : CreationTimeRangeFilter) : Prop :=
  GoInt32 f.bounds ∧ (∀ x, f.start = some x → GoTime x) ∧ ∀ x, f.stop = some x → GoTime x
def ProfileV (p : Profile) : Prop := GoProfile p ∧ ∀ s ∈ profileTexts p, IsText s
def MatchV (m : Match) : Prop := GoMatch m ∧ ∀ s ∈ matchTexts m, IsText s
def SpecV (s : Serve.MmfSpec) : Prop := GoSpec s ∧ ∀ x ∈ specTexts s, IsText x

theorem extTexts_iff {m : GoMap AnyPb} :
    (GoExtensions m ∧ ∀ s ∈ extTexts m, IsText s) ↔ (m.map (·.1)).Nodup ∧ ∀ e ∈ m, IsText e.1 ∧ AnyVal e.2 := by
  unfold extTexts AnyVal IsBytes
  constructor
  · rintro ⟨h, ht⟩
    exact ⟨h.keys, fun e he => ⟨ht _ (List.mem_flatMap.2 ⟨e, he, by simp⟩), ht _ (List.mem_flatMap.2 ⟨e, he, by simp⟩), h.bytes e he⟩⟩
  · rintro ⟨h, ht⟩
    refine ⟨⟨h, fun e he => (ht e he).2.2⟩, fun s hs => ?_⟩
    obtain ⟨e, he, hs⟩ := List.mem_flatMap.1 hs
    simp only [List.mem_cons, List.not_mem_nil, or_false] at hs
    rcases hs with rfl | rfl
    · exact (ht e he).1
    · exact (ht e he).2.1

theorem time_snd : Snd IsTimestamp timeC toTimestamp GoTime := by
  intro b hb h
  obtain ⟨w1, -, -⟩ := wellFormed_get hb h
  obtain ⟨a1, a2⟩ := num64_snd (n := 1) (fs := parse b)
  obtain ⟨b1, b2⟩ := num32_snd (n := 2) (fs := parse b)
  exact ⟨⟨_, w1, ⟨1, by decide +kernel, a1⟩, ⟨2, by decide +kernel, b1⟩⟩, a2, b2⟩

theorem time_cpl : Cpl IsTimestamp timeC GoTime := by
  rintro v b ⟨fs, hb, -⟩ -
  exact (wellFormed_of hb).2 (by simp [timeC])

theorem any_snd : Snd IsAny anyC toAny AnyVal := by
  intro b hb h
  obtain ⟨w1, w2, w3⟩ := wellFormed_get hb h
  simp only [anyC, List.forall_mem_cons] at w3
  obtain ⟨a1, a2⟩ := text_snd w3.1
  obtain ⟨b1, b2⟩ := bytes_snd (w2 2)
  exact ⟨⟨_, w1, ⟨1, by decide +kernel, a1⟩, ⟨2, by decide +kernel, b1⟩⟩, a2, b2⟩

theorem any_cpl : Cpl IsAny anyC AnyVal := by
  rintro v b ⟨fs, hb, h1, h2⟩ hv
  rw [wellFormed_of hb]
  simp only [anyC, List.forall_mem_cons]
  exact ⟨text_cpl (has_at 1 h1 (by decide +kernel)) hv.1, by simp⟩

theorem ext_snd {n : Nat} {fs : List Field} (hb : ∀ s ∈ lens n fs, IsBytes s) (h : ∀ s ∈ lens n fs, (extC n).2 s = true) :
    MapVal AnyVal (MsgInMap IsAny) (toExt n fs) (occ n fs) ∧ GoExtensions (toExt n fs) ∧ ∀ s ∈ extTexts (toExt n fs), IsText s := by
  rw [extTexts_iff]
  exact map_snd (msgInMap_snd any_snd) hb h

theorem ext_cpl {n : Nat} {fs : List Field} {m : GoMap AnyPb} (h : MapVal AnyVal (MsgInMap IsAny) m (occ n fs))
    (hm : GoExtensions m ∧ ∀ s ∈ extTexts m, IsText s) : ∀ s ∈ lens n fs, (extC n).2 s = true :=
  map_cpl (msgInMap_cpl any_cpl) h (extTexts_iff.1 hm).2

theorem dataTexts_iff {d : FilterableData} : (∀ s ∈ dataTexts d, IsText s) ↔ (∀ s ∈ d.tags, IsText s) ∧
    (∀ e ∈ d.stringArgs, IsText e.1 ∧ IsText e.2) ∧ ∀ e ∈ d.doubleArgs, IsText e.1 := by
  unfold dataTexts
  rw [List.forall_mem_append, List.forall_mem_append, and_assoc]
  refine and_congr Iff.rfl (and_congr ⟨fun h e he => ⟨h _ (List.mem_flatMap.2 ⟨e, he, by simp⟩), h _ (List.mem_flatMap.2 ⟨e, he, by simp⟩)⟩,
    fun h s hs => ?_⟩ (by simp))
  obtain ⟨e, he, hs⟩ := List.mem_flatMap.1 hs
  simp only [List.mem_cons, List.not_mem_nil, or_false] at hs
  rcases hs with rfl | rfl
  · exact (h e he).1
  · exact (h e he).2

theorem data_snd : Snd IsData dataC toData DataV := by
  intro b hb h
  obtain ⟨w1, w2, w3⟩ := wellFormed_get hb h
  simp only [dataC, List.forall_mem_cons] at w3
  obtain ⟨q1, q2, q3, q4, -⟩ := w3
  obtain ⟨b1, b2, b3⟩ := map_snd (val := fun e => getStr 2 e) (Q := TextVal) (T := IsText) (fun gs _ h => text_snd h) (w2 2) q2
  obtain ⟨c1, c2, c3⟩ := map_snd (val := fun e => (dbls 2 e).getLast?.getD 0) (Q := DoubleVal) (T := fun _ => True)
    (fun gs _ _ => ⟨dbl_snd, trivial⟩) (w2 3) q3
  obtain ⟨d1, d2⟩ := msg_snd time_snd (w2 4) q4
  refine ⟨⟨_, w1, ⟨1, by decide +kernel, (lens_occ _ _).symm⟩, ⟨2, by decide +kernel, b1⟩, ⟨3, by decide +kernel, c1⟩, ⟨4, by decide +kernel, d1⟩⟩,
    ⟨⟨b2, c2⟩, d2⟩, dataTexts_iff.2 ⟨fun s hs => (utf8Valid_iff s).1 (q1 s hs), b3, fun e he => (c3 e he).1⟩⟩

theorem data_cpl : Cpl IsData dataC DataV := by
  rintro d b ⟨fs, hb, h1, h2, h3, h4⟩ ⟨⟨hg, ht⟩, hx⟩
  rw [dataTexts_iff] at hx
  rw [wellFormed_of hb]
  simp only [dataC, List.forall_mem_cons]
  exact ⟨texts_cpl (has_at 1 h1 (by decide +kernel)) hx.1,
    map_cpl (fun v gs h hv => text_cpl h hv) (has_at 2 h2 (by decide +kernel)) hx.2.1,
    map_cpl (fun _ _ _ _ _ _ => rfl) (has_at 3 h3 (by decide +kernel)) (fun e he => ⟨hx.2.2 e he, trivial⟩),
    msg_cpl time_cpl (has_at 4 h4 (by decide +kernel)) ht, by simp⟩

theorem opt_texts {α : Type} {texts : α → List Str} {o : Option α} :
    (∀ s ∈ o.elim [] texts, IsText s) ↔ ∀ v, o = some v → ∀ s ∈ texts v, IsText s := by
  cases o <;> simp

theorem list_texts {α : Type} {texts : α → List Str} {l : List α} :
    (∀ s ∈ l.flatMap texts, IsText s) ↔ ∀ v ∈ l, ∀ s ∈ texts v, IsText s := by
  simp only [List.mem_flatMap]
  exact ⟨fun h v hv s hs => h s ⟨v, hv, hs⟩, fun h s ⟨v, hv, hs⟩ => h v hv s hs⟩

theorem sentTexts_iff {t : Ticket} : (∀ s ∈ sentTexts t, IsText s) ↔ IsText t.id ∧
    (∀ d, t.attributes = some d → ∀ s ∈ dataTexts d, IsText s) ∧ ∀ s ∈ extTexts t.extensions, IsText s := by
  unfold sentTexts ticketTexts
  rw [List.forall_mem_cons, List.forall_mem_append, opt_texts]

theorem ticket_snd : Snd IsTicket ticketC toTicket TicketV := by
  intro b hb h
  obtain ⟨w1, w2, w3⟩ := wellFormed_get hb h
  simp only [ticketC, List.forall_mem_cons] at w3
  obtain ⟨q1, q2, q3, q4, -⟩ := w3
  obtain ⟨a1, a2⟩ := text_snd q1
  obtain ⟨b1, b2⟩ := msg_snd time_snd (w2 2) q2
  obtain ⟨c1, c2⟩ := msg_snd data_snd (w2 3) q3
  obtain ⟨d1, d2, d3⟩ := ext_snd (w2 4) q4
  exact ⟨⟨_, w1, ⟨1, by decide +kernel, a1⟩, ⟨2, by decide +kernel, b1⟩, ⟨3, by decide +kernel, c1⟩, ⟨4, by decide +kernel, d1⟩⟩,
    ⟨⟨fun d hd => (c2 d hd).1.1, d2⟩, b2, fun d x hd hx => (c2 d hd).1.2 x hx⟩,
    sentTexts_iff.2 ⟨a2, fun d hd => (c2 d hd).2, d3⟩⟩

theorem ticket_cpl : Cpl IsTicket ticketC TicketV := by
  rintro t b ⟨fs, hb, h1, h2, h3, h4⟩ ⟨hg, hx⟩
  rw [sentTexts_iff] at hx
  rw [wellFormed_of hb]
  simp only [ticketC, List.forall_mem_cons]
  exact ⟨text_cpl (has_at 1 h1 (by decide +kernel)) hx.1, msg_cpl time_cpl (has_at 2 h2 (by decide +kernel)) hg.expiration,
    msg_cpl data_cpl (has_at 3 h3 (by decide +kernel)) (fun d hd => ⟨⟨hg.attributes d hd, fun x hx => hg.creation d x hd hx⟩, hx.2.1 d hd⟩),
    ext_cpl (has_at 4 h4 (by decide +kernel)) ⟨hg.extensions, hx.2.2⟩, by simp⟩

theorem assignment_snd : Snd IsAssignment assignmentC toAssignment AssignmentV := by
  intro b hb h
  obtain ⟨w1, w2, w3⟩ := wellFormed_get hb h
  simp only [assignmentC, List.forall_mem_cons] at w3
  obtain ⟨q1, q2, -⟩ := w3
  obtain ⟨a1, a2⟩ := text_snd q1
  obtain ⟨d1, d2, d3⟩ := ext_snd (w2 2) q2
  exact ⟨⟨_, w1, ⟨1, by decide +kernel, a1⟩, ⟨2, by decide +kernel, d1⟩⟩, d2, List.forall_mem_cons.2 ⟨a2, d3⟩⟩

theorem assignment_cpl : Cpl IsAssignment assignmentC AssignmentV := by
  rintro t b ⟨fs, hb, h1, h2⟩ ⟨hg, hx⟩
  rw [assignmentTexts, List.forall_mem_cons] at hx
  rw [wellFormed_of hb]
  simp only [assignmentC, List.forall_mem_cons]
  exact ⟨text_cpl (has_at 1 h1 (by decide +kernel)) hx.1, ext_cpl (has_at 2 h2 (by decide +kernel)) ⟨hg, hx.2⟩, by simp⟩

theorem rosterTexts_iff {r : Roster} : (∀ s ∈ rosterTexts r, IsText s) ↔ IsText r.name ∧
    (∀ a, r.assignment = some a → ∀ s ∈ assignmentTexts a, IsText s) ∧ (∀ t ∈ r.tickets, ∀ s ∈ sentTexts t, IsText s) ∧
    ∀ s ∈ extTexts r.extensions, IsText s := by
  unfold rosterTexts
  rw [List.forall_mem_cons, List.forall_mem_append, List.forall_mem_append, opt_texts, list_texts, and_assoc]
  rfl

theorem roster_snd : Snd IsRoster rosterC toRoster RosterVal := by
  intro b hb h
  obtain ⟨w1, w2, w3⟩ := wellFormed_get hb h
  simp only [rosterC, List.forall_mem_cons] at w3
  obtain ⟨q1, q2, q3, q4, -⟩ := w3
  obtain ⟨a1, a2⟩ := text_snd q1
  obtain ⟨b1, b2⟩ := msg_snd assignment_snd (w2 2) q2
  obtain ⟨c1, c2⟩ := msgs_snd ticket_snd (w2 3) q3
  obtain ⟨d1, d2, d3⟩ := ext_snd (w2 4) q4
  exact ⟨⟨_, w1, ⟨1, by decide +kernel, a1⟩, ⟨2, by decide +kernel, b1⟩, ⟨3, by decide +kernel, c1⟩, ⟨4, by decide +kernel, d1⟩⟩,
    ⟨fun a ha => (b2 a ha).1, fun t ht => (c2 t ht).1, d2⟩,
    rosterTexts_iff.2 ⟨a2, fun a ha => (b2 a ha).2, fun t ht => (c2 t ht).2, d3⟩⟩

theorem roster_cpl : Cpl IsRoster rosterC RosterVal := by
  rintro t b ⟨fs, hb, h1, h2, h3, h4⟩ ⟨hg, hx⟩
  rw [rosterTexts_iff] at hx
  rw [wellFormed_of hb]
  simp only [rosterC, List.forall_mem_cons]
  exact ⟨text_cpl (has_at 1 h1 (by decide +kernel)) hx.1,
    msg_cpl assignment_cpl (has_at 2 h2 (by decide +kernel)) (fun a ha => ⟨hg.assignment a ha, hx.2.1 a ha⟩),
    msgs_cpl ticket_cpl (has_at 3 h3 (by decide +kernel)) (fun t ht => ⟨hg.tickets t ht, hx.2.2.1 t ht⟩),
    ext_cpl (has_at 4 h4 (by decide +kernel)) ⟨hg.extensions, hx.2.2.2⟩, by simp⟩

theorem tagFilter_snd : Snd IsTagFilter tagFilterC toTagFilter (fun f => IsText f.tag) := by
  intro b hb h
  obtain ⟨w1, w2, w3⟩ := wellFormed_get hb h
  simp only [tagFilterC, List.forall_mem_cons] at w3
  obtain ⟨a1, a2⟩ := text_snd w3.1
  exact ⟨⟨_, w1, 1, by decide +kernel, a1⟩, a2⟩

theorem tagFilter_cpl : Cpl IsTagFilter tagFilterC (fun f => IsText f.tag) := by
  rintro t b ⟨fs, hb, h1⟩ hx
  rw [wellFormed_of hb]
  simp only [tagFilterC, List.forall_mem_cons]
  exact ⟨text_cpl (has_at 1 h1 (by decide +kernel)) hx, by simp⟩

theorem stringFilter_snd : Snd IsStringFilter strFilterC toStrFilter (fun f => IsText f.stringArg ∧ IsText f.value) := by
  intro b hb h
  obtain ⟨w1, w2, w3⟩ := wellFormed_get hb h
  simp only [strFilterC, List.forall_mem_cons] at w3
  obtain ⟨a1, a2⟩ := text_snd w3.1
  obtain ⟨b1, b2⟩ := text_snd w3.2.1
  exact ⟨⟨_, w1, ⟨1, by decide +kernel, a1⟩, ⟨2, by decide +kernel, b1⟩⟩, a2, b2⟩

theorem stringFilter_cpl : Cpl IsStringFilter strFilterC (fun f => IsText f.stringArg ∧ IsText f.value) := by
  rintro t b ⟨fs, hb, h1, h2⟩ hx
  rw [wellFormed_of hb]
  simp only [strFilterC, List.forall_mem_cons]
  exact ⟨text_cpl (has_at 1 h1 (by decide +kernel)) hx.1, text_cpl (has_at 2 h2 (by decide +kernel)) hx.2, by simp⟩

theorem doubleFilter_snd : Snd IsDoubleFilter dblFilterC toDblFilter (fun f => IsText f.doubleArg ∧ GoInt32 f.bounds) := by
  intro b hb h
  obtain ⟨w1, w2, w3⟩ := wellFormed_get hb h
  simp only [dblFilterC, List.forall_mem_cons] at w3
  obtain ⟨a1, a2⟩ := text_snd w3.1
  obtain ⟨b1, b2⟩ := num32_snd (n := 4) (fs := parse b)
  exact ⟨⟨_, w1, ⟨1, by decide +kernel, a1⟩, ⟨2, by decide +kernel, dbl_snd⟩, ⟨3, by decide +kernel, dbl_snd⟩, ⟨4, by decide +kernel, b1⟩⟩, a2, b2⟩

theorem doubleFilter_cpl : Cpl IsDoubleFilter dblFilterC (fun f => IsText f.doubleArg ∧ GoInt32 f.bounds) := by
  rintro t b ⟨fs, hb, h1, -⟩ hx
  rw [wellFormed_of hb]
  simp only [dblFilterC, List.forall_mem_cons]
  exact ⟨text_cpl (has_at 1 h1 (by decide +kernel)) hx.1, by simp⟩

theorem timeFilter_snd : Snd IsTimeFilter ctFilterC toCtFilter TimeFilterV := by
  intro b hb h
  obtain ⟨w1, w2, w3⟩ := wellFormed_get hb h
  simp only [ctFilterC, List.forall_mem_cons] at w3
  obtain ⟨a1, a2⟩ := msg_snd time_snd (w2 6) w3.1
  obtain ⟨b1, b2⟩ := msg_snd time_snd (w2 7) w3.2.1
  obtain ⟨c1, c2⟩ := num32_snd (n := 4) (fs := parse b)
  exact ⟨⟨_, w1, ⟨6, by decide +kernel, a1⟩, ⟨7, by decide +kernel, b1⟩, ⟨4, by decide +kernel, c1⟩⟩, c2, a2, b2⟩

theorem timeFilter_cpl : Cpl IsTimeFilter ctFilterC TimeFilterV := by
  rintro t b ⟨fs, hb, h1, h2, -⟩ hx
  rw [wellFormed_of hb]
  simp only [ctFilterC, List.forall_mem_cons]
  exact ⟨msg_cpl time_cpl (has_at 6 h1 (by decide +kernel)) hx.2.1, msg_cpl time_cpl (has_at 7 h2 (by decide +kernel)) hx.2.2, by simp⟩

theorem poolTexts_iff {p : Pool} : (∀ s ∈ poolTexts p, IsText s) ↔ IsText p.name ∧ (∀ f ∈ p.tagPresentFilters, IsText f.tag) ∧
    (∀ f ∈ p.stringEqualsFilters, IsText f.stringArg ∧ IsText f.value) ∧ (∀ f ∈ p.doubleRangeFilters, IsText f.doubleArg) ∧
    (∀ r, p.participants = some r → ∀ s ∈ rosterTexts r, IsText s) ∧ ∀ s ∈ extTexts p.extensions, IsText s := by
  unfold poolTexts
  rw [List.forall_mem_cons, List.forall_mem_append, List.forall_mem_append, List.forall_mem_append, List.forall_mem_append, opt_texts,
    list_texts]
  simp [and_assoc]

theorem pool_snd : Snd IsPool poolC toPool PoolVal := by
  intro b hb h
  obtain ⟨w1, w2, w3⟩ := wellFormed_get hb h
  simp only [poolC, List.forall_mem_cons] at w3
  obtain ⟨q1, q2, q3, q4, q5, q6, q7, -⟩ := w3
  obtain ⟨a1, a2⟩ := text_snd q1
  obtain ⟨b1, b2⟩ := msgs_snd tagFilter_snd (w2 2) q2
  obtain ⟨c1, c2⟩ := msgs_snd stringFilter_snd (w2 3) q3
  obtain ⟨d1, d2⟩ := msgs_snd doubleFilter_snd (w2 4) q4
  obtain ⟨e1, e2⟩ := msg_snd timeFilter_snd (w2 5) q5
  obtain ⟨f1, f2⟩ := msg_snd roster_snd (w2 6) q6
  obtain ⟨g1, g2, g3⟩ := ext_snd (w2 7) q7
  exact ⟨⟨_, w1, ⟨1, by decide +kernel, a1⟩, ⟨2, by decide +kernel, b1⟩, ⟨3, by decide +kernel, c1⟩, ⟨4, by decide +kernel, d1⟩,
      ⟨5, by decide +kernel, e1⟩, ⟨6, by decide +kernel, f1⟩, ⟨7, by decide +kernel, g1⟩⟩,
    ⟨fun f hf => (d2 f hf).2, e2, fun r hr => (f2 r hr).1, g2⟩,
    poolTexts_iff.2 ⟨a2, b2, c2, fun f hf => (d2 f hf).1, fun r hr => (f2 r hr).2, g3⟩⟩

theorem pool_cpl : Cpl IsPool poolC PoolVal := by
  rintro t b ⟨fs, hb, h1, h2, h3, h4, h5, h6, h7⟩ ⟨hg, hx⟩
  rw [poolTexts_iff] at hx
  obtain ⟨x1, x2, x3, x4, x5, x6⟩ := hx
  rw [wellFormed_of hb]
  simp only [poolC, List.forall_mem_cons]
  exact ⟨text_cpl (has_at 1 h1 (by decide +kernel)) x1,
    msgs_cpl tagFilter_cpl (has_at 2 h2 (by decide +kernel)) x2,
    msgs_cpl stringFilter_cpl (has_at 3 h3 (by decide +kernel)) x3,
    msgs_cpl doubleFilter_cpl (has_at 4 h4 (by decide +kernel)) (fun f hf => ⟨x4 f hf, hg.doubles f hf⟩),
    msg_cpl timeFilter_cpl (has_at 5 h5 (by decide +kernel)) hg.times,
    msg_cpl roster_cpl (has_at 6 h6 (by decide +kernel)) (fun r hr => ⟨hg.participants r hr, x5 r hr⟩),
    ext_cpl (has_at 7 h7 (by decide +kernel)) ⟨hg.extensions, x6⟩, by simp⟩

theorem profileTexts_iff {p : Profile} : (∀ s ∈ profileTexts p, IsText s) ↔ IsText p.name ∧
    (∀ e ∈ p.pools, IsText e.1 ∧ ∀ s ∈ poolTexts e.2, IsText s) ∧ ∀ s ∈ extTexts p.extensions, IsText s := by
  unfold profileTexts
  rw [List.forall_mem_cons, List.forall_mem_append, list_texts]
  simp only [List.forall_mem_cons]

theorem profile_snd : Snd IsProfile profileC toProfile ProfileV := by
  intro b hb h
  obtain ⟨w1, w2, w3⟩ := wellFormed_get hb h
  simp only [profileC, List.forall_mem_cons] at w3
  obtain ⟨q1, q2, q3, -⟩ := w3
  obtain ⟨a1, a2⟩ := text_snd q1
  obtain ⟨b1, b2, b3⟩ := map_snd (msgInMap_snd pool_snd) (w2 2) q2
  obtain ⟨c1, c2, c3⟩ := ext_snd (w2 3) q3
  exact ⟨⟨_, w1, ⟨1, by decide +kernel, a1⟩, ⟨2, by decide +kernel, b1⟩, ⟨3, by decide +kernel, c1⟩⟩,
    ⟨b2, fun e he => (b3 e he).2.1, c2⟩, profileTexts_iff.2 ⟨a2, fun e he => ⟨(b3 e he).1, (b3 e he).2.2⟩, c3⟩⟩

theorem profile_cpl : Cpl IsProfile profileC ProfileV := by
  rintro t b ⟨fs, hb, h1, h2, h3⟩ ⟨hg, hx⟩
  rw [profileTexts_iff] at hx
  rw [wellFormed_of hb]
  simp only [profileC, List.forall_mem_cons]
  exact ⟨text_cpl (has_at 1 h1 (by decide +kernel)) hx.1,
    map_cpl (msgInMap_cpl pool_cpl) (has_at 2 h2 (by decide +kernel)) (fun e he => ⟨(hx.2.1 e he).1, hg.pools e he, (hx.2.1 e he).2⟩),
    ext_cpl (has_at 3 h3 (by decide +kernel)) ⟨hg.extensions, hx.2.2⟩, by simp⟩

theorem matchTexts_iff {m : Match} : (∀ s ∈ matchTexts m, IsText s) ↔ IsText m.id ∧
    (∀ e ∈ m.rosters, IsText e.1 ∧ ∀ s ∈ rosterTexts e.2, IsText s) ∧ ∀ s ∈ extTexts m.extensions, IsText s := by
  unfold matchTexts
  rw [List.forall_mem_cons, List.forall_mem_append, list_texts]
  simp only [List.forall_mem_cons]

theorem match_snd : Snd IsMatch matchC toMatch MatchV := by
  intro b hb h
  obtain ⟨w1, w2, w3⟩ := wellFormed_get hb h
  simp only [matchC, List.forall_mem_cons] at w3
  obtain ⟨q1, q2, q3, -⟩ := w3
  obtain ⟨a1, a2⟩ := text_snd q1
  obtain ⟨b1, b2, b3⟩ := map_snd (msgInMap_snd roster_snd) (w2 2) q2
  obtain ⟨c1, c2, c3⟩ := ext_snd (w2 3) q3
  exact ⟨⟨_, w1, ⟨1, by decide +kernel, a1⟩, ⟨2, by decide +kernel, b1⟩, ⟨3, by decide +kernel, c1⟩⟩,
    ⟨b2, fun e he => (b3 e he).2.1, c2⟩, matchTexts_iff.2 ⟨a2, fun e he => ⟨(b3 e he).1, (b3 e he).2.2⟩, c3⟩⟩

theorem match_cpl : Cpl IsMatch matchC MatchV := by
  rintro t b ⟨fs, hb, h1, h2, h3⟩ ⟨hg, hx⟩
  rw [matchTexts_iff] at hx
  rw [wellFormed_of hb]
  simp only [matchC, List.forall_mem_cons]
  exact ⟨text_cpl (has_at 1 h1 (by decide +kernel)) hx.1,
    map_cpl (msgInMap_cpl roster_cpl) (has_at 2 h2 (by decide +kernel)) (fun e he => ⟨(hx.2.1 e he).1, hg.rosters e he, (hx.2.1 e he).2⟩),
    ext_cpl (has_at 3 h3 (by decide +kernel)) ⟨hg.extensions, hx.2.2⟩, by simp⟩

theorem spec_snd : Snd IsSpec specC toSpec SpecV := by
  intro b hb h
  obtain ⟨w1, w2, w3⟩ := wellFormed_get hb h
  simp only [specC, List.forall_mem_cons] at w3
  obtain ⟨a1, a2⟩ := text_snd w3.1
  obtain ⟨b1, b2⟩ := text_snd w3.2.1
  obtain ⟨c1, c2⟩ := num32_snd (n := 3) (fs := parse b)
  obtain ⟨d1, d2⟩ := num32_snd (n := 4) (fs := parse b)
  exact ⟨⟨_, w1, ⟨1, by decide +kernel, a1⟩, ⟨2, by decide +kernel, b1⟩, ⟨3, by decide +kernel, c1⟩, ⟨4, by decide +kernel, d1⟩⟩,
    ⟨c2, d2⟩, by simpa [specTexts] using ⟨a2, b2⟩⟩

theorem spec_cpl : Cpl IsSpec specC SpecV := by
  rintro t b ⟨fs, hb, h1, h2, -⟩ ⟨-, hx⟩
  rw [specTexts, List.forall_mem_cons, List.forall_mem_singleton] at hx
  rw [wellFormed_of hb]
  simp only [specC, List.forall_mem_cons]
  exact ⟨text_cpl (has_at 1 h1 (by decide +kernel)) hx.1, text_cpl (has_at 2 h2 (by decide +kernel)) hx.2, by simp⟩

/-! ## The requests and responses -/

/-- What `ok` says of the messages that are there. -/
def OptV {α : Type} (ok : α → Prop) (o : Option α) : Prop := ∀ v, o = some v → ok v

theorem createTicket_snd : Snd IsCreateTicketRequest createTicketC toCreateTicket (OptV TicketV) := by
  intro b hb h
  obtain ⟨w1, w2, w3⟩ := wellFormed_get hb h
  simp only [createTicketC, List.forall_mem_cons] at w3
  obtain ⟨a1, a2⟩ := msg_snd ticket_snd (w2 1) w3.1
  exact ⟨⟨_, w1, 1, by decide +kernel, a1⟩, a2⟩

theorem createTicket_cpl : Cpl IsCreateTicketRequest createTicketC (OptV TicketV) := by
  rintro v b ⟨fs, hb, h1⟩ hv
  rw [wellFormed_of hb]
  simp only [createTicketC, List.forall_mem_cons]
  exact ⟨msg_cpl ticket_cpl (has_at 1 h1 (by decide +kernel)) hv, by simp⟩

/-- The requests that carry ids. -/
abbrev idsRequests : List String := ["ActivateTicketsRequest", "DeactivateTicketsRequest", "WatchAssignmentsRequest"]

theorem has_ids {m : String} (hm : m ∈ idsRequests) {fs : List Field} {P : List WVal → Prop} :
    Has m "ticket_ids" "repeated string" fs P ↔ P (occ 1 fs) := by
  simp only [List.mem_cons, List.not_mem_nil, or_false] at hm
  rcases hm with rfl | rfl | rfl <;> exact ⟨fun h => has_at 1 h (by decide +kernel), fun h => ⟨1, by decide +kernel, h⟩⟩

theorem ids_snd {m : String} (hm : m ∈ idsRequests) : Snd (IsIdsRequest m) idsC toIds (fun ids => ∀ s ∈ ids, IsText s) := by
  intro b hb h
  obtain ⟨w1, w2, w3⟩ := wellFormed_get hb h
  simp only [idsC, List.forall_mem_cons] at w3
  exact ⟨⟨_, w1, (has_ids hm).2 (lens_occ _ _).symm⟩, fun s hs => (utf8Valid_iff s).1 (w3.1 s hs)⟩

theorem ids_cpl {m : String} (hm : m ∈ idsRequests) : Cpl (IsIdsRequest m) idsC (fun ids => ∀ s ∈ ids, IsText s) := by
  rintro v b ⟨fs, hb, h1⟩ hv
  rw [wellFormed_of hb]
  simp only [idsC, List.forall_mem_cons]
  exact ⟨texts_cpl ((has_ids hm).1 h1) hv, by simp⟩

theorem mmfRequest_snd : Snd (fun q => IsMmfRequest q.1 q.2) mmfRequestC toMmfRequest (fun q => OptV ProfileV q.1 ∧ ∀ s ∈ q.2, SpecV s) := by
  intro b hb h
  obtain ⟨w1, w2, w3⟩ := wellFormed_get hb h
  simp only [mmfRequestC, List.forall_mem_cons] at w3
  obtain ⟨a1, a2⟩ := msg_snd profile_snd (w2 1) w3.1
  obtain ⟨b1, b2⟩ := msgs_snd spec_snd (w2 2) w3.2.1
  exact ⟨⟨_, w1, ⟨1, by decide +kernel, a1⟩, ⟨2, by decide +kernel, b1⟩⟩, a2, b2⟩

theorem mmfRequest_cpl : Cpl (fun q : Option Profile × List Serve.MmfSpec => IsMmfRequest q.1 q.2) mmfRequestC (fun q => OptV ProfileV q.1 ∧ ∀ s ∈ q.2, SpecV s) := by
  rintro v b ⟨fs, hb, h1, h2⟩ hv
  rw [wellFormed_of hb]
  simp only [mmfRequestC, List.forall_mem_cons]
  exact ⟨msg_cpl profile_cpl (has_at 1 h1 (by decide +kernel)) hv.1, msgs_cpl spec_cpl (has_at 2 h2 (by decide +kernel)) hv.2, by simp⟩

theorem createAssignments_snd : Snd IsCreateAssignmentsRequest createAssignmentsC toCreateAssignments (OptV RosterVal) := by
  intro b hb h
  obtain ⟨w1, w2, w3⟩ := wellFormed_get hb h
  simp only [createAssignmentsC, List.forall_mem_cons] at w3
  obtain ⟨a1, a2⟩ := msg_snd roster_snd (w2 1) w3.1
  exact ⟨⟨_, w1, 1, by decide +kernel, a1⟩, a2⟩

theorem createAssignments_cpl : Cpl IsCreateAssignmentsRequest createAssignmentsC (OptV RosterVal) := by
  rintro v b ⟨fs, hb, h1⟩ hv
  rw [wellFormed_of hb]
  simp only [createAssignmentsC, List.forall_mem_cons]
  exact ⟨msg_cpl roster_cpl (has_at 1 h1 (by decide +kernel)) hv, by simp⟩

theorem created_snd : Snd IsCreateTicketResponse createdC toCreated IsText := by
  intro b hb h
  obtain ⟨w1, w2, w3⟩ := wellFormed_get hb h
  simp only [createdC, List.forall_mem_cons] at w3
  obtain ⟨a1, a2⟩ := text_snd w3.1
  exact ⟨⟨_, w1, 1, by decide +kernel, a1⟩, a2⟩

theorem created_cpl : Cpl IsCreateTicketResponse createdC IsText := by
  rintro v b ⟨fs, hb, h1⟩ hv
  rw [wellFormed_of hb]
  simp only [createdC, List.forall_mem_cons]
  exact ⟨text_cpl (has_at 1 h1 (by decide +kernel)) hv, by simp⟩

theorem watch_snd : Snd (fun q => IsWatchResponse q.1 q.2) watchC toWatch (fun q => OptV AssignmentV q.1 ∧ IsText q.2) := by
  intro b hb h
  obtain ⟨w1, w2, w3⟩ := wellFormed_get hb h
  simp only [watchC, List.forall_mem_cons] at w3
  obtain ⟨a1, a2⟩ := msg_snd assignment_snd (w2 1) w3.1
  obtain ⟨b1, b2⟩ := text_snd w3.2.1
  exact ⟨⟨_, w1, ⟨1, by decide +kernel, a1⟩, ⟨2, by decide +kernel, b1⟩⟩, a2, b2⟩

theorem watch_cpl : Cpl (fun q : Option Assignment × Str => IsWatchResponse q.1 q.2) watchC (fun q => OptV AssignmentV q.1 ∧ IsText q.2) := by
  rintro v b ⟨fs, hb, h1, h2⟩ hv
  rw [wellFormed_of hb]
  simp only [watchC, List.forall_mem_cons]
  exact ⟨msg_cpl assignment_cpl (has_at 1 h1 (by decide +kernel)) hv.1, text_cpl (has_at 2 h2 (by decide +kernel)) hv.2, by simp⟩

theorem response_snd : Snd IsMmfResponse responseC toResponse (OptV MatchV) := by
  intro b hb h
  obtain ⟨w1, w2, w3⟩ := wellFormed_get hb h
  simp only [responseC, List.forall_mem_cons] at w3
  obtain ⟨a1, a2⟩ := msg_snd match_snd (w2 1) w3.1
  exact ⟨⟨_, w1, 1, by decide +kernel, a1⟩, a2⟩

theorem response_cpl : Cpl IsMmfResponse responseC (OptV MatchV) := by
  rintro v b ⟨fs, hb, h1⟩ hv
  rw [wellFormed_of hb]
  simp only [responseC, List.forall_mem_cons]
  exact ⟨msg_cpl match_cpl (has_at 1 h1 (by decide +kernel)) hv, by simp⟩

theorem chunk_snd : Snd IsChunk chunkC toChunkMsg (fun c => OptV ProfileV c.profile ∧ GoInt32 c.numChunks) := by
  intro b hb h
  obtain ⟨w1, w2, w3⟩ := wellFormed_get hb h
  simp only [chunkC, List.forall_mem_cons] at w3
  obtain ⟨a1, a2⟩ := msg_snd profile_snd (w2 1) w3.1
  obtain ⟨b1, b2⟩ := num32_snd (n := 2) (fs := parse b)
  exact ⟨⟨_, w1, ⟨1, by decide +kernel, a1⟩, ⟨2, by decide +kernel, b1⟩⟩, a2, b2⟩

theorem chunk_cpl : Cpl IsChunk chunkC (fun c => OptV ProfileV c.profile ∧ GoInt32 c.numChunks) := by
  rintro v b ⟨fs, hb, h1, h2⟩ hv
  rw [wellFormed_of hb]
  simp only [chunkC, List.forall_mem_cons]
  exact ⟨msg_cpl profile_cpl (has_at 1 h1 (by decide +kernel)) hv.1, by simp⟩

/-! ## What is read -/

theorem receive_of {α : Type} {R : α → Str → Prop} {subs : Content} {dec : List Field → α} {ok go : α → Prop} {v : α} {b : Str}
    (hc : Cpl R subs ok) (hd : ∀ v b, R v b → go v → dec (parse b) = v) (hr : R v b) (hk : ok v) (hg : go v) : receive subs dec b = some v := by
  unfold receive
  rw [if_pos (hc v b hr hk), hd v b hr hg]

theorem understands {α : Type} {R : α → Str → Prop} {subs : Content} {dec : List Field → α} {ok go : α → Prop} {texts : α → List Str}
    (hs : Snd R subs dec ok) (hc : Cpl R subs ok) (hok : ∀ v, ok v ↔ go v ∧ ∀ s ∈ texts v, IsText s)
    (hd : ∀ v b, R v b → go v → dec (parse b) = v) : Understands (receive subs dec) R go texts := by
  have key : ∀ b, IsBytes b → ∀ v, receive subs dec b = some v ↔ R v b ∧ go v ∧ ∀ s ∈ texts v, IsText s := by
    intro b hb v
    rw [← hok]
    constructor
    · intro h
      unfold receive at h
      split at h
      · cases h; exact hs b hb ‹_›
      · cases h
    · exact fun h => receive_of hc hd h.1 h.2 ((hok v).1 h.2).1
  refine fun b hb => ⟨key b hb, fun v hr hg => ⟨fun ht => (key b hb v).2 ⟨hr, hg, ht⟩, ?_⟩⟩
  rintro ⟨s, hs, hn⟩
  cases hw : receive subs dec b with
  | none => rfl
  | some w =>
    obtain ⟨h1, h2, h3⟩ := (key b hb w).1 hw
    rw [← (hd v b hr hg).symm.trans (hd w b h1 h2)] at h3
    exact absurd (h3 s hs) hn

theorem createTicket_of (t : Option Ticket) (b : Str) (h : IsCreateTicketRequest t b) (hg : OptGo GoSentTicket t) : toCreateTicket (parse b) = t := by
  obtain ⟨fs, hb, h1⟩ := h
  rw [parse_of hb]
  exact getMsg_of ticket_of (has_at 1 h1 (by decide +kernel)) hg

theorem ids_of {m : String} (hm : m ∈ idsRequests) (ids : List Str) (b : Str) (h : IsIdsRequest m ids b) (_ : True) : toIds (parse b) = ids := by
  obtain ⟨fs, hb, h1⟩ := h
  rw [parse_of hb]
  exact (lens_occ _ _).trans ((has_ids hm).1 h1)

theorem mmfRequest_of (q : Option Profile × List Serve.MmfSpec) (b : Str) (h : IsMmfRequest q.1 q.2 b)
    (hg : OptGo GoProfile q.1 ∧ ∀ s ∈ q.2, GoSpec s) : toMmfRequest (parse b) = q := by
  obtain ⟨fs, hb, h1, h2⟩ := h
  rw [parse_of hb]
  unfold toMmfRequest
  rw [getMsg_of profile_of (has_at 1 h1 (by decide +kernel)) hg.1, getMsgs_of spec_of (has_at 2 h2 (by decide +kernel)) hg.2]

theorem createAssignments_of (r : Option Roster) (b : Str) (h : IsCreateAssignmentsRequest r b) (hg : OptGo GoRoster r) :
    toCreateAssignments (parse b) = r := by
  obtain ⟨fs, hb, h1⟩ := h
  rw [parse_of hb]
  exact getMsg_of roster_of (has_at 1 h1 (by decide +kernel)) hg

theorem optV_iff {α : Type} {go : α → Prop} {texts : α → List Str} (o : Option α) :
    OptV (fun v => go v ∧ ∀ s ∈ texts v, IsText s) o ↔ OptGo go o ∧ ∀ s ∈ optTexts texts o, IsText s := by
  unfold optTexts OptV OptGo
  rw [opt_texts]
  exact ⟨fun h => ⟨fun v e => (h v e).1, fun v e => (h v e).2⟩, fun h v e => ⟨h.1 v e, h.2 v e⟩⟩

/-- What can be marshalled: values that Go can hold, whose strings are text. -/
theorem ext_good {m : GoMap AnyPb} (h : mapOk m anyOk = true) : GoExtensions m ∧ ∀ s ∈ extTexts m, IsText s := by
  rw [extTexts_iff]
  obtain ⟨h1, h2⟩ := mapOk_iff.1 h
  refine ⟨h1, fun e he => ?_⟩
  obtain ⟨k, a⟩ := h2 e he
  simp only [anyOk, Bool.and_eq_true, bytesOk, List.all_eq_true, decide_eq_true_eq] at a
  exact ⟨(utf8Valid_iff _).1 k, (utf8Valid_iff _).1 a.1, a.2⟩

theorem time_good {o : Option Timestamp} (h : o.all tsOk = true) : ∀ x, o = some x → GoTime x := by
  rintro x rfl
  simpa [tsOk, GoTime, and_assoc] using h

theorem ticket_good {t : Ticket} (h : ticketOk t = true) : TicketV t := by
  have h' := h
  simp only [ticketOk, Bool.and_eq_true] at h
  obtain ⟨⟨⟨-, h2⟩, h3⟩, h4⟩ := h
  have hd : ∀ d, t.attributes = some d → GoData d ∧ ∀ x, d.creationTime = some x → GoTime x := by
    intro d e
    rw [e, Option.all_some] at h3
    simp only [dataOk, Bool.and_eq_true] at h3
    exact ⟨⟨(mapOk_iff.1 h3.1.1.2).1, (mapOk_iff.1 h3.1.2).1⟩, time_good h3.2⟩
  have hg : GoSentTicket t := ⟨⟨fun d e => (hd d e).1, (ext_good h4).1⟩, time_good h2, fun d x e => (hd d e).2 x⟩
  exact ⟨hg, (ticketOk_iff hg).1 h'⟩

theorem assignment_good {a : Assignment} (h : assignmentOk a = true) : AssignmentV a := by
  have h' := h
  simp only [assignmentOk, Bool.and_eq_true] at h
  exact ⟨(ext_good h.2).1, (assignmentOk_iff (ext_good h.2).1).1 h'⟩

theorem roster_good {r : Roster} (h : rosterOk r = true) : RosterVal r := by
  have h' := h
  simp only [rosterOk, Bool.and_eq_true, List.all_eq_true] at h
  obtain ⟨⟨⟨-, h2⟩, h3⟩, h4⟩ := h
  have hg : GoRoster r := by
    refine ⟨fun a e => ?_, fun t ht => (ticket_good (h3 t ht)).1, (ext_good h4).1⟩
    rw [e, Option.all_some] at h2
    exact (assignment_good h2).1
  exact ⟨hg, (rosterOk_iff hg).1 h'⟩

theorem pool_good {p : Pool} (h : poolOk p = true) : PoolVal p := by
  have h' := h
  simp only [poolOk, Bool.and_eq_true, List.all_eq_true] at h
  obtain ⟨⟨⟨⟨-, h4⟩, h5⟩, h6⟩, h7⟩ := h
  have hg : GoPool p := by
    refine ⟨fun f hf => ?_, fun f e => ?_, fun r e => ?_, (ext_good h7).1⟩
    · have := h4 f hf
      simp only [dblFilterOk, Bool.and_eq_true, int32Ok, decide_eq_true_eq] at this
      exact this.2
    · rw [e, Option.all_some] at h5
      simp only [ctFilterOk, Bool.and_eq_true, int32Ok, decide_eq_true_eq] at h5
      exact ⟨h5.2, time_good h5.1.1, time_good h5.1.2⟩
    · rw [e, Option.all_some] at h6
      exact (roster_good h6).1
  exact ⟨hg, (poolOk_iff hg).1 h'⟩

theorem profile_good {p : Profile} (h : profileOk p = true) : ProfileV p := by
  have h' := h
  simp only [profileOk, Bool.and_eq_true] at h
  have h2 := mapOk_iff.1 h.1.2
  have hg : GoProfile p := ⟨h2.1, fun e he => (pool_good (h2.2 e he).2).1, (ext_good h.2).1⟩
  exact ⟨hg, (profileOk_iff hg).1 h'⟩

theorem spec_good {s : Serve.MmfSpec} (h : specOk s = true) : SpecV s := by
  simp only [specOk, Bool.and_eq_true, utf8Valid_iff, int32Ok, decide_eq_true_eq] at h
  exact ⟨⟨h.1.2, h.2⟩, by simpa [specTexts] using h.1.1⟩

theorem opt_good {α : Type} {okb : α → Bool} {ok : α → Prop} (hg : ∀ {v}, okb v = true → ok v) {o : Option α} (h : o.all okb = true) :
    OptV ok o := by
  rintro v rfl
  exact hg h

end OM.Wire
