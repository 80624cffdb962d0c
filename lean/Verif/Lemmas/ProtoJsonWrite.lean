import Verif.Lemmas.JsonTime
import Verif.Lemmas.JsonWrite
import Verif.Lemmas.Watch
/-! Lemmas on `Model/ProtoJson`: what its writers write stands for the message, and when they
write nothing. -/
set_option linter.unusedSimpArgs false
set_option linter.unusedVariables false

namespace OM.PJ
open OM.Spec

/-! ## Members -/

/-- A member, or none. -/
def P (name : String) (x : Option Json) : List (Str × Json) := x.toList.map fun j => (name.toList, j)

def strV (o : Opts) (s : Str) : Option Json := if s = [] ∧ o.emit = false then none else some (.str s)
def intV (o : Opts) (v : Int) : Option Json := if v = 0 ∧ o.emit = false then none else some (.num (fmtInt v))
def enumV (o : Opts) (table : List (String × Int)) (v : Int) : Option Json := if v = 0 ∧ o.emit = false then none else some (enumJson table v)
def doubleV (fl : FloatText) (o : Opts) (x : F64) : Option Json := if x = 0 ∧ o.emit = false then none else some (doubleJson fl x)
def msgV (o : Opts) (m : Option Json) : Option Json :=
  match m with
  | none => if o.emit then some .null else none
  | some j => some j
def listV (o : Opts) (l : List Json) : Option Json := if l = [] ∧ o.emit = false then none else some (.arr l)
def mapV (o : Opts) (l : List (Str × Json)) : Option Json := if l = [] ∧ o.emit = false then none else some (.obj l)

theorem P_ite (name : String) (c : Prop) [Decidable c] (j : Json) :
    P name (if c then none else some j) = if c then [] else [(name.toList, j)] := by split <;> rfl

theorem putStr_eq (o : Opts) (name : String) (s : Str) : putStr o name s = P name (strV o s) := (P_ite _ _ _).symm
theorem putInt_eq (o : Opts) (name : String) (v : Int) : putInt o name v = P name (intV o v) := (P_ite _ _ _).symm
theorem putEnum_eq (o : Opts) (name : String) (t : List (String × Int)) (v : Int) : putEnum o name t v = P name (enumV o t v) := (P_ite _ _ _).symm
theorem putDouble_eq (fl : FloatText) (o : Opts) (name : String) (x : F64) : putDouble fl o name x = P name (doubleV fl o x) := (P_ite _ _ _).symm
theorem putList_eq (o : Opts) (name : String) (l : List Json) : putList o name l = P name (listV o l) := (P_ite _ _ _).symm
theorem putMap_eq (o : Opts) (name : String) (l : List (Str × Json)) : putMap o name l = P name (mapV o l) := (P_ite _ _ _).symm
theorem putMsg_eq (o : Opts) (name : String) (m : Option Json) : putMsg o name m = P name (msgV o m) := by
  cases m with
  | none => simp only [putMsg, msgV]; split <;> rfl
  | some j => rfl

/-- The members with the names and values given. -/
def members : List (String × Option Json) → List (Str × Json)
  | [] => []
  | p :: l => P p.1 p.2 ++ members l

theorem occJ_append (f : String) (a b : List (Str × Json)) : occJ f (a ++ b) = occJ f a ++ occJ f b := by
  unfold occJ; rw [List.filter_append, List.map_append]

def Named (f n : String) : Prop := n.toList = f.toList ∨ n.toList = camel f.toList
instance (f n : String) : Decidable (Named f n) := by unfold Named; infer_instance

theorem occJ_P (f n : String) (x : Option Json) : occJ f (P n x) = if Named f n then x.toList else [] := by
  unfold occJ P
  cases x with
  | none => simp
  | some j =>
    by_cases h : Named f n
    · rw [if_pos h]
      simp only [Option.toList_some, List.map_cons, List.map_nil, List.filter_cons, List.filter_nil]
      rw [if_pos (decide_eq_true (show _ ∨ _ from h))]
      rfl
    · rw [if_neg h]
      simp only [Option.toList_some, List.map_cons, List.map_nil, List.filter_cons, List.filter_nil]
      rw [if_neg (by rw [decide_eq_true_eq]; exact h)]
      rfl

theorem occJ_none (f : String) (l : List (String × Option Json)) (h : ∀ n ∈ l.map (·.1), ¬ Named f n) : occJ f (members l) = [] := by
  induction l with
  | nil => rfl
  | cons p l ih =>
    rw [members, occJ_append, occJ_P, if_neg (h p.1 (by simp)), ih fun n hn => h n (by simp at hn ⊢; right; exact hn)]
    rfl

/-- The value of a field in members of different names. -/
theorem occJ_at {f n : String} {x : Option Json} {l1 l2 : List (String × Option Json)} (h : Named f n)
    (h1 : ∀ k ∈ l1.map (·.1), ¬ Named f k) (h2 : ∀ k ∈ l2.map (·.1), ¬ Named f k) :
    occJ f (members (l1 ++ (n, x) :: l2)) = x.toList := by
  induction l1 with
  | nil =>
    rw [List.nil_append, members, occJ_append, occJ_P, if_pos h, occJ_none f l2 h2, List.append_nil]
  | cons p l ih =>
    rw [List.cons_append, members, occJ_append, occJ_P, if_neg (h1 p.1 (by simp)), List.nil_append]
    exact ih fun k hk => h1 k (by simp at hk ⊢; right; exact hk)

theorem members_mem {l : List (String × Option Json)} {x : Str × Json} (h : x ∈ members l) :
    ∃ p ∈ l, x.1 = p.1.toList ∧ p.2 = some x.2 := by
  induction l with
  | nil => cases h
  | cons p l ih =>
    rw [members, List.mem_append] at h
    rcases h with h | h
    · unfold P at h
      rw [List.mem_map] at h
      obtain ⟨j, hj, rfl⟩ := h
      exact ⟨p, by simp, rfl, by simpa using hj⟩
    · obtain ⟨q, hq, h'⟩ := ih h
      exact ⟨q, by simp [hq], h'⟩

theorem mem_members {l : List (String × Option Json)} {p : String × Option Json} {j : Json} (h : p ∈ l) (hj : p.2 = some j) :
    (p.1.toList, j) ∈ members l := by
  induction l with
  | nil => cases h
  | cons q l ih =>
    rw [members, List.mem_append]
    rcases List.mem_cons.mp h with rfl | h
    · left; unfold P; rw [hj]; simp
    · exact .inr (ih h)

/-- Members with declared names are known. -/
theorem known {m : String} (e : Env) {l : List (String × Option Json)}
    (h : ∀ n ∈ l.map (·.1), ∃ d ∈ published, d.1 = m ∧ ∃ x ∈ d.2, n.toList = camel x.1.toList) : KnownJ e m (members l) := by
  right
  intro x hx
  obtain ⟨p, hp, h1, -⟩ := members_mem hx
  obtain ⟨d, hd, hm, y, hy, hc⟩ := h p.1 (List.mem_map_of_mem hp)
  exact ⟨y.1, y.2.1, y.2.2, ⟨d, hd, hm, hy⟩, .inr (by rw [h1]; exact hc)⟩

def numsO (x : Option Json) : Prop := ∀ j, x = some j → j.numsOk
def textO (x : Option Json) : Prop := ∀ j, x = some j → j.textOk = true

theorem members_nums {l : List (String × Option Json)} (h : ∀ p ∈ l, numsO p.2) : (Json.obj (members l)).numsOk := by
  show Json.numsOkm _
  rw [Json.numsOkm_iff]
  intro m hm
  obtain ⟨p, hp, -, h2⟩ := members_mem hm
  exact h p hp _ h2

theorem members_text {l : List (String × Option Json)} (hn : ∀ n ∈ l.map (·.1), Wire.utf8Valid n.toList = true) :
    (Json.obj (members l)).textOk = true ↔ ∀ p ∈ l, textO p.2 := by
  rw [show (Json.obj (members l)).textOk = Json.textOkm (members l) from by rw [Json.textOk], Json.textOkm_iff]
  constructor
  · intro h p hp j hj
    exact (h _ (mem_members hp hj)).2
  · intro h m hm
    obtain ⟨p, hp, h1, h2⟩ := members_mem hm
    exact ⟨by rw [h1]; exact hn _ (List.mem_map_of_mem hp), h p hp _ h2⟩

/-! ## Values -/

theorem text_iff (s : Str) : Wire.utf8Valid s = true ↔ IsText s := Wire.utf8Valid_iff s

theorem strV_ok (o : Opts) (s : Str) : TextJ s (strV o s).toList ∧ numsO (strV o s) ∧ (textO (strV o s) ↔ IsText s) := by
  unfold strV
  split
  · rename_i h
    refine ⟨.inr ⟨h.1, .inl rfl⟩, fun j hj => (by cases hj), ⟨fun _ => ?_, fun _ j hj => (by cases hj)⟩⟩
    rw [h.1]; exact ⟨[], rfl⟩
  · refine ⟨.inl rfl, fun j hj => (by cases hj; trivial), ⟨fun h => ?_, fun h j hj => ?_⟩⟩
    · have := h _ rfl
      rw [Json.textOk, text_iff] at this
      exact this
    · cases hj; rw [Json.textOk, text_iff]; exact h

theorem number_fmtInt (v : Int) : ∃ neg i, NumText neg i [] 0 (fmtInt v) ∧ (if neg then -1 else 1) * (digitsValue i : Int) = v := by
  have key : ∀ n : Nat, Decimals (fmtNat n) ∧ digitsValue (fmtNat n) = n ∧ (fmtNat n = ['0'] ∨ (fmtNat n).head? ≠ some '0') := by
    intro n
    refine ⟨(Serve.decInt_fmtNat n).1, (Serve.decInt_fmtNat n).2, ?_⟩
    rcases Nat.eq_zero_or_pos n with rfl | h
    · left; decide
    · right; exact Watch.fmtNat_head h
  cases v with
  | ofNat n =>
    obtain ⟨h1, h2, h3⟩ := key n
    exact ⟨false, fmtNat n, ⟨[], [], by simp [fmtInt], h1, h3, .inl ⟨rfl, rfl⟩, .inl ⟨rfl, rfl⟩⟩, by rw [h2]; simp⟩
  | negSucc n =>
    obtain ⟨h1, h2, h3⟩ := key (n + 1)
    exact ⟨true, fmtNat (n + 1), ⟨[], [], by simp [fmtInt], h1, h3, .inl ⟨rfl, rfl⟩, .inl ⟨rfl, rfl⟩⟩, by rw [h2]; simp; omega⟩

theorem intNum_fmtInt {v : Int} (h : GoInt32 v) : IntNum v (fmtInt v) := by
  obtain ⟨neg, i, h1, h2⟩ := number_fmtInt v
  exact ⟨neg, i, [], 0, h1, by simp [h2], fun _ _ => by decide, h⟩

theorem isNumber_fmtInt (v : Int) : IsNumber (fmtInt v) := by
  obtain ⟨neg, i, h1, -⟩ := number_fmtInt v
  exact ⟨neg, i, [], 0, h1⟩

theorem intV_ok (o : Opts) (v : Int) : (GoInt32 v → IntJ v (intV o v).toList) ∧ numsO (intV o v) ∧ textO (intV o v) := by
  unfold intV
  split
  · rename_i h
    exact ⟨fun _ => .inr ⟨h.1, .inl rfl⟩, fun j hj => (by cases hj), fun j hj => (by cases hj)⟩
  · refine ⟨fun h => .inl ⟨_, .inl rfl, intNum_fmtInt h⟩, fun j hj => (by cases hj; exact isNumber_fmtInt v), fun j hj => ?_⟩
    cases hj; rw [Json.textOk]

theorem enumV_ok (e : Env) {table : List (String × Int)} {ty : String} (ht : table = enumNames ty)
    (hu : ∀ x ∈ table, Wire.utf8Valid x.1.toList = true) (v : Int) :
    (GoInt32 v → EnumJ e ty v (enumV e.opts table v).toList) ∧ numsO (enumV e.opts table v) ∧ textO (enumV e.opts table v) := by
  unfold enumV
  split
  · rename_i h
    exact ⟨fun _ => .inr (.inr (.inl ⟨h.1, .inl rfl⟩)), fun j hj => (by cases hj), fun j hj => (by cases hj)⟩
  · unfold enumJson
    cases hf : table.find? (fun x => decide (x.2 = v)) with
    | some x =>
      have h1 : x.2 = v := by have := List.find?_some hf; simpa using this
      have h2 := List.mem_of_find?_eq_some hf
      refine ⟨fun _ => .inl ⟨x.1, rfl, ?_⟩, fun j hj => (by cases hj; trivial), fun j hj => ?_⟩
      · rw [← ht, ← h1]; exact h2
      · cases hj; rw [Json.textOk]; exact hu x h2
    | none =>
      refine ⟨fun h => .inr (.inl ⟨_, rfl, intNum_fmtInt h⟩), fun j hj => (by cases hj; exact isNumber_fmtInt v), fun j hj => ?_⟩
      cases hj; rw [Json.textOk]

theorem doubleJson_ok {e : Env} (he : EnvOk e) (x : F64) : (DoubleGo x → DoubleJ1 e.fl x (doubleJson e.fl x)) ∧
    (doubleJson e.fl x).numsOk ∧ (doubleJson e.fl x).textOk = true ∧ doubleJson e.fl x ≠ .null := by
  unfold doubleJson
  by_cases h1 : F64.isNaN x = true
  · rw [if_pos h1]
    exact ⟨fun h => .inr (.inr (.inl ⟨rfl, h h1⟩)), trivial, by decide, by simp⟩
  rw [if_neg h1]
  by_cases h2 : x = goInf
  · rw [if_pos h2]
    exact ⟨fun h => .inr (.inr (.inr (.inl ⟨rfl, h2⟩))), trivial, by decide, by simp⟩
  rw [if_neg h2]
  by_cases h3 : x = goNegInf
  · rw [if_pos h3]
    exact ⟨fun h => .inr (.inr (.inr (.inr ⟨rfl, h3⟩))), trivial, by decide, by simp⟩
  rw [if_neg h3]
  obtain ⟨n1, n2⟩ := he.number x (by simpa using h1) h2 h3
  exact ⟨fun _ => .inl ⟨_, rfl, n2⟩, n1, by rw [Json.textOk], by simp⟩

theorem doubleV_ok {e : Env} (he : EnvOk e) (x : F64) : (DoubleGo x → DoubleJ e.fl x (doubleV e.fl e.opts x).toList) ∧
    numsO (doubleV e.fl e.opts x) ∧ textO (doubleV e.fl e.opts x) := by
  unfold doubleV
  obtain ⟨h1, h2, h3, -⟩ := doubleJson_ok he x
  by_cases h : x = 0 ∧ e.opts.emit = false
  · rw [if_pos h]
    exact ⟨fun _ => .inr ⟨h.1, .inl rfl⟩, fun j hj => (by cases hj), fun j hj => (by cases hj)⟩
  · rw [if_neg h]
    exact ⟨fun h => .inl ⟨_, rfl, h1 h⟩, fun j hj => (by cases hj; exact h2), fun j hj => (by cases hj; exact h3)⟩

/-- What is wanted of a writer: it writes exactly what `ok` says, and what it writes stands for
the value if that is as `go` says. -/
structure Writes {α : Type} (enc : α → Option Json) (ok go : α → Prop) (R : α → Json → Prop) : Prop where
  exact_ : ∀ v, (∃ j, enc v = some j ∧ j.textOk = true) ↔ ok v
  shape : ∀ v j, enc v = some j → j.numsOk ∧ j ≠ .null
  means : ∀ v j, enc v = some j → go v → R v j

theorem optM_exact {α : Type} {enc : α → Option Json} {ok go : α → Prop} {R : α → Json → Prop} (w : Writes enc ok go R) (o : Opts)
    (v : Option α) : (∃ x, optM enc v = some x ∧ textO (msgV o x)) ↔ OptAll ok v := by
  cases v with
  | none =>
    refine ⟨fun _ x hx => (by cases hx), fun _ => ⟨none, rfl, fun j hj => ?_⟩⟩
    simp only [msgV] at hj
    split at hj
    · cases hj; rw [Json.textOk]
    · cases hj
  | some v =>
    constructor
    · rintro ⟨x, hx, ht⟩ y hy
      cases hy
      simp only [optM, Option.map_eq_some_iff] at hx
      obtain ⟨j, hj, rfl⟩ := hx
      exact (w.exact_ v).mp ⟨j, hj, ht j rfl⟩
    · intro h
      obtain ⟨j, hj, ht⟩ := (w.exact_ v).mpr (h v rfl)
      refine ⟨some j, by simp only [optM, hj, Option.map_some], fun k hk => ?_⟩
      cases hk; exact ht

theorem optM_means {α : Type} {enc : α → Option Json} {ok go : α → Prop} {R : α → Json → Prop} (w : Writes enc ok go R) (o : Opts)
    {v : Option α} {x : Option Json} (h : optM enc v = some x) : numsO (msgV o x) ∧ (OptAll go v → MsgJ R v (msgV o x).toList) := by
  cases v with
  | none =>
    cases h
    simp only [msgV]
    split
    · exact ⟨fun j hj => (by cases hj; trivial), fun _ => .inr rfl⟩
    · exact ⟨fun j hj => (by cases hj), fun _ => .inl rfl⟩
  | some v =>
    simp only [optM, Option.map_eq_some_iff] at h
    obtain ⟨j, hj, rfl⟩ := h
    obtain ⟨h1, h2⟩ := w.shape v j hj
    exact ⟨fun k hk => (by cases hk; exact h1), fun hg => ⟨j, rfl, h2, w.means v j hj (hg v rfl)⟩⟩

theorem textO_listV (o : Opts) (l : List Json) : textO (listV o l) ↔ ∀ j ∈ l, j.textOk = true := by
  unfold listV
  split
  · rename_i h; rw [h.1]; simp [textO]
  · constructor
    · intro h
      have := h _ rfl
      rw [Json.textOk, Json.textOks_iff] at this
      exact this
    · intro h j hj
      cases hj; rw [Json.textOk, Json.textOks_iff]; exact h

theorem textO_mapV (o : Opts) (l : List (Str × Json)) : textO (mapV o l) ↔ ∀ m ∈ l, IsText m.1 ∧ m.2.textOk = true := by
  unfold mapV
  split
  · rename_i h; rw [h.1]; simp [textO]
  · constructor
    · intro h
      have := h _ rfl
      rw [Json.textOk, Json.textOkm_iff] at this
      intro m hm
      rw [← text_iff]
      exact this m hm
    · intro h j hj
      cases hj; rw [Json.textOk, Json.textOkm_iff]
      intro m hm
      rw [text_iff]
      exact h m hm

theorem mapM_exact {α β : Type} {f : α → Option β} {T : β → Prop} {S : α → Prop} (h : ∀ a, (∃ b, f a = some b ∧ T b) ↔ S a) (l : List α) :
    (∃ bs, l.mapM f = some bs ∧ ∀ b ∈ bs, T b) ↔ ∀ a ∈ l, S a := by
  induction l with
  | nil => exact ⟨fun _ a ha => (by cases ha), fun _ => ⟨[], rfl, fun b hb => (by cases hb)⟩⟩
  | cons a l ih =>
    rw [List.mapM_cons]
    rw [List.forall_mem_cons, ← ih, ← h]
    constructor
    · rintro ⟨bs, hb, ht⟩
      obtain ⟨b, h1, hb⟩ := Option.bind_eq_some_iff.mp hb
      obtain ⟨bs', h2, hb⟩ := Option.bind_eq_some_iff.mp hb
      cases hb
      rw [List.forall_mem_cons] at ht
      exact ⟨⟨b, h1, ht.1⟩, bs', h2, ht.2⟩
    · rintro ⟨⟨b, h1, h2⟩, bs, h3, h4⟩
      refine ⟨b :: bs, ?_, List.forall_mem_cons.mpr ⟨h2, h4⟩⟩
      rw [h1, h3]; rfl

theorem mapM_rel {α β : Type} {f : α → Option β} {l : List α} {bs : List β} (h : l.mapM f = some bs) :
    List.Forall₂ (fun a b => f a = some b) l bs := by
  induction l generalizing bs with
  | nil => cases h; exact .nil
  | cons a l ih =>
    rw [List.mapM_cons] at h
    obtain ⟨b, h1, h⟩ := Option.bind_eq_some_iff.mp h
    obtain ⟨bs', h2, h⟩ := Option.bind_eq_some_iff.mp h
    cases h
    exact .cons h1 (ih h2)

theorem forall₂_mem_imp {α β : Type} {R S : α → β → Prop} {l : List α} {bs : List β} (h : List.Forall₂ R l bs)
    (hi : ∀ a ∈ l, ∀ b ∈ bs, R a b → S a b) : List.Forall₂ S l bs := by
  induction h with
  | nil => exact .nil
  | cons h1 h2 ih =>
    exact .cons (hi _ (by simp) _ (by simp) h1) (ih fun a ha b hb => hi a (by simp [ha]) b (by simp [hb]))

theorem forall₂_right {α β : Type} {R : α → β → Prop} {l : List α} {bs : List β} (h : List.Forall₂ R l bs) :
    ∀ b ∈ bs, ∃ a ∈ l, R a b := by
  induction h with
  | nil => intro b hb; cases hb
  | cons h1 h2 ih =>
    intro b hb
    rcases List.mem_cons.mp hb with rfl | hb
    · exact ⟨_, by simp, h1⟩
    · obtain ⟨a, ha, hr⟩ := ih b hb
      exact ⟨a, by simp [ha], hr⟩

theorem listM_exact {α : Type} {enc : α → Option Json} {ok go : α → Prop} {R : α → Json → Prop} (w : Writes enc ok go R) (o : Opts)
    (l : List α) : (∃ js, l.mapM enc = some js ∧ textO (listV o js)) ↔ ListAll ok l := by
  rw [ListAll, ← mapM_exact w.exact_ l]
  simp only [textO_listV]

theorem listM_means {α : Type} {enc : α → Option Json} {ok go : α → Prop} {R : α → Json → Prop} (w : Writes enc ok go R) (o : Opts)
    {l : List α} {js : List Json} (h : l.mapM enc = some js) : numsO (listV o js) ∧ (ListAll go l → ListJ R l (listV o js).toList) := by
  have hr := mapM_rel h
  unfold listV
  split
  · rename_i h0
    rw [h0.1] at hr
    cases hr
    exact ⟨fun j hj => (by cases hj), fun _ => .inr ⟨rfl, .inl rfl⟩⟩
  · refine ⟨fun j hj => ?_, fun hg => .inl ⟨js, rfl, ?_⟩⟩
    · cases hj
      show Json.numsOks js
      rw [Json.numsOks_iff]
      intro b hb
      obtain ⟨a, _, ha⟩ := forall₂_right hr b hb
      exact (w.shape a b ha).1
    · exact forall₂_mem_imp hr fun a ha b _ hab => w.means a b hab (hg a ha)

theorem mapM_keys {V : Type} {enc : V → Option Json} {m : GoMap V} {js : List (Str × Json)} (h : mapM' enc m = some js) :
    List.Forall₂ (fun x y => x.1 = y.1 ∧ enc x.2 = some y.2) m js := by
  refine forall₂_mem_imp (mapM_rel h) ?_
  rintro ⟨k, v⟩ - ⟨k', j⟩ - hab
  simp only [Option.map_eq_some_iff, Prod.mk.injEq] at hab
  obtain ⟨j', hj, rfl, rfl⟩ := hab
  exact ⟨rfl, hj⟩

theorem mapM'_exact {V : Type} {enc : V → Option Json} {ok go : V → Prop} {R : V → Json → Prop} (w : Writes enc ok go R) (o : Opts)
    (m : GoMap V) : (∃ js, mapM' enc m = some js ∧ textO (mapV o js)) ↔ MapAll ok m := by
  have h : ∀ x : Str × V, (∃ y : Str × Json, ((enc x.2).map fun j => (x.1, j)) = some y ∧ (IsText y.1 ∧ y.2.textOk = true)) ↔
      IsText x.1 ∧ ok x.2 := by
    rintro ⟨k, v⟩
    simp only [Option.map_eq_some_iff, ← w.exact_ v]
    constructor
    · rintro ⟨y, ⟨j, hj, rfl⟩, h1, h2⟩; exact ⟨h1, j, hj, h2⟩
    · rintro ⟨h1, j, hj, h2⟩; exact ⟨_, ⟨j, hj, rfl⟩, h1, h2⟩
  rw [MapAll, ← mapM_exact h m]
  simp only [textO_mapV]
  rfl

theorem mapM'_means {V : Type} {enc : V → Option Json} {ok go : V → Prop} {R : V → Json → Prop} (w : Writes enc ok go R) (o : Opts)
    {m : GoMap V} {js : List (Str × Json)} (h : mapM' enc m = some js) :
    numsO (mapV o js) ∧ (MapGo go m → MapJ R m (mapV o js).toList) := by
  have hr := mapM_keys h
  have hkeys : m.map (·.1) = js.map (·.1) := by
    clear h
    induction hr with
    | nil => rfl
    | cons h1 _ ih => rw [List.map_cons, List.map_cons, h1.1, ih]
  unfold mapV
  split
  · rename_i h0
    rw [h0.1] at hr
    cases hr
    exact ⟨fun j hj => (by cases hj), fun _ => .inr ⟨rfl, .inl rfl⟩⟩
  · refine ⟨fun j hj => ?_, fun hg => .inl ⟨js, rfl, by rw [← hkeys]; exact hg.1, ?_⟩⟩
    · cases hj
      show Json.numsOkm js
      rw [Json.numsOkm_iff]
      intro b hb
      obtain ⟨a, _, ha⟩ := forall₂_right hr b hb
      exact (w.shape a.2 b.2 ha.2).1
    · exact forall₂_mem_imp hr fun a ha b _ hab => ⟨hab.1, w.means a.2 b.2 hab.2 (hg.2 a ha)⟩

theorem mapM_pure {α β : Type} (f : α → β) (l : List α) : l.mapM (fun x => some (f x)) = some (l.map f) := by
  induction l with
  | nil => rfl
  | cons a l ih => rw [List.mapM_cons, ih]; rfl

theorem listP_exact {α : Type} {f : α → Json} {ok go : α → Prop} {R : α → Json → Prop} (w : Writes (fun x => some (f x)) ok go R) (o : Opts)
    (l : List α) : textO (listV o (l.map f)) ↔ ListAll ok l := by
  rw [← listM_exact w o l, mapM_pure]
  simp

theorem listP_means {α : Type} {f : α → Json} {ok go : α → Prop} {R : α → Json → Prop} (w : Writes (fun x => some (f x)) ok go R) (o : Opts)
    (l : List α) : numsO (listV o (l.map f)) ∧ (ListAll go l → ListJ R l (listV o (l.map f)).toList) :=
  listM_means w o (mapM_pure ..)

theorem mapP_exact {V : Type} {f : V → Json} {ok go : V → Prop} {R : V → Json → Prop} (w : Writes (fun x => some (f x)) ok go R) (o : Opts)
    (m : GoMap V) : textO (mapV o (m.map fun x => (x.1, f x.2))) ↔ MapAll ok m := by
  rw [← mapM'_exact w o m, mapM']
  simp only [Option.map_some]
  rw [mapM_pure]
  simp

theorem mapP_means {V : Type} {f : V → Json} {ok go : V → Prop} {R : V → Json → Prop} (w : Writes (fun x => some (f x)) ok go R) (o : Opts)
    (m : GoMap V) : numsO (mapV o (m.map fun x => (x.1, f x.2))) ∧ (MapGo go m → MapJ R m (mapV o (m.map fun x => (x.1, f x.2))).toList) :=
  mapM'_means w o (by rw [mapM']; simp only [Option.map_some]; exact mapM_pure ..)

theorem strW : Writes (fun s => some (.str s)) IsText (fun _ => True) StrJ where
  exact_ s := by simp [Json.textOk, text_iff]
  shape s j h := by cases h; exact ⟨trivial, by simp⟩
  means s j h _ := by cases h; rfl

theorem doubleW {e : Env} (he : EnvOk e) : Writes (fun x => some (doubleJson e.fl x)) (fun _ => True) DoubleGo (DoubleJ1 e.fl) where
  exact_ x := by simp [(doubleJson_ok he x).2.2.1]
  shape x j h := by cases h; exact ⟨(doubleJson_ok he x).2.1, (doubleJson_ok he x).2.2.2⟩
  means x j h hg := by cases h; exact (doubleJson_ok he x).1 hg

theorem ascii_text {s : Str} (h : ∀ c ∈ s, c.toNat < 0x80) : Wire.utf8Valid s = true := by
  rw [Json.utf8Valid_V]
  have := (Json.V_asciis h []).mpr Json.V_nil
  rwa [List.append_nil] at this

theorem pad_ascii (w n : Nat) : ∀ c ∈ fmtNatPad w n, c.toNat < 0x80 := by
  intro c hc
  unfold fmtNatPad at hc
  rcases List.mem_append.mp hc with hc | hc
  · rw [List.eq_of_mem_replicate hc]; decide
  · have := ((Serve.decInt_fmtNat n).1.2 c hc).2
    have : c.toNat ≤ 57 := this
    omega

theorem timeText_text (t : Timestamp) : Wire.utf8Valid (timeText t) = true := by
  apply ascii_text
  intro c hc
  unfold timeText at hc
  simp only [List.mem_append, List.mem_cons] at hc
  have pad := fun w n => pad_ascii w n c
  have frac : ∀ n : Nat, c ∈ (if n % 1000 ≠ 0 then '.' :: fmtNatPad 9 n
      else if n / 1000 % 1000 ≠ 0 then '.' :: fmtNatPad 6 (n / 1000)
      else if n ≠ 0 then '.' :: fmtNatPad 3 (n / 1000000)
      else []) → c.toNat < 0x80 := by
    intro n h
    repeat' split at h
    all_goals first | (rcases List.mem_cons.mp h with rfl | h <;> [decide; exact pad _ _ h]) | cases h
  rcases hc with h | rfl | h | rfl | h | rfl | h | rfl | h | rfl | h | h | rfl | h
  all_goals first | exact pad _ _ h | exact frac _ h | decide | cases h

theorem timeW : Writes timeJson TimeOk (fun _ => True) TimeJ where
  exact_ t := by
    unfold timeJson TimeOk
    constructor
    · rintro ⟨j, h, -⟩
      split at h
      · rename_i hc; exact hc
      · cases h
    · intro h
      refine ⟨_, if_pos h, ?_⟩
      rw [Json.textOk]
      exact timeText_text t
  shape t j h := by
    refine ⟨?_, (timeJson_some h).2⟩
    obtain ⟨s, rfl, -⟩ := (timeJson_some h).1
    trivial
  means t j h _ := (timeJson_some h).1

theorem jtext_nums {j : Json} {t : Str} (h : JText j t) : j.numsOk := by
  refine JText.rec
    (motive_1 := fun j t _ => j.numsOk)
    (motive_2 := fun l t _ => Json.numsOks l)
    (motive_3 := fun l t _ => Json.numsOkm l)
    ?_ ?_ ?_ ?_ ?_ ?_ ?_ ?_ ?_ ?_ ?_ ?_ ?_ h
  · trivial
  · trivial
  · trivial
  · intro t hn; exact hn
  · intro t s _; trivial
  · intro w _; trivial
  · intro l t _ ih; exact ih
  · intro w _; trivial
  · intro l t _ ih; exact ih
  · intro j w t w' _ _ _ ih; exact ⟨ih, trivial⟩
  · intro j l w t w' r _ _ _ _ ih ih'; exact ⟨ih, ih'⟩
  · intro k j w kt w1 w2 t w' _ _ _ _ _ _ ih; exact ⟨ih, trivial⟩
  · intro k j l w kt w1 w2 t w' r _ _ _ _ _ _ _ ih ih'; exact ⟨ih, ih'⟩

theorem jdoc_exists {j : Json} (h : j.numsOk) : (∃ t, JDoc j t) ↔ j.textOk = true := by
  constructor
  · rintro ⟨t, ht, w, v, w', rfl, hw, hv, hw'⟩
    have h1 := (Json.utf8Valid_V _).mp ((Wire.utf8Valid_iff _).mpr ht)
    rw [Json.V_asciis (Json.ws_ascii hw), Json.V_append_ascii (Json.ws_ascii hw'), Json.jtext_V hv] at h1
    exact h1
  · intro ht
    exact ⟨_, Json.write_doc false (sep := []) (by intro c hc; cases hc) h ht⟩

theorem anyW {e : Env} (he : EnvOk e) : Writes (anyJson e) (AnyOk e) (AnyGo e) (AnyJ e) where
  exact_ a := by
    obtain ⟨url, val⟩ := a
    unfold anyJson AnyOk
    simp only
    by_cases hu : url = []
    · subst hu
      rw [if_pos rfl]
      by_cases hv : val = []
      · subst hv
        rw [if_pos rfl]
        exact ⟨fun _ => .inl rfl, fun _ => ⟨_, rfl, by decide⟩⟩
      · rw [if_neg hv]
        refine ⟨fun ⟨j, h, _⟩ => (by cases h), fun h => ?_⟩
        rcases h with h | ⟨h, -⟩
        · cases h; exact absurd rfl hv
        · exact absurd rfl h
    · rw [if_neg hu]
      constructor
      · rintro ⟨j, h, ht⟩
        rw [Option.map_eq_some_iff] at h
        obtain ⟨ms, hm, rfl⟩ := h
        obtain ⟨⟨t, hj⟩, -⟩ := he.members _ _ _ hm
        rw [Json.textOk, Json.textOkm_iff, List.forall_mem_cons, ← Json.textOkm_iff] at ht
        obtain ⟨⟨-, h1⟩, h2⟩ := ht
        rw [Json.textOk, text_iff] at h1
        have h3 : (Json.obj ms).textOk = true := by rw [Json.textOk]; exact h2
        obtain ⟨t', ht'⟩ := (jdoc_exists (jtext_nums hj)).mpr h3
        exact .inr ⟨hu, h1, ms, t', hm, ht'⟩
      · rintro (h | ⟨-, h1, ms, t, hm, ht⟩)
        · cases h; exact absurd rfl hu
        · obtain ⟨⟨t', hj⟩, -⟩ := he.members _ _ _ hm
          have h3 := (jdoc_exists (jtext_nums hj)).mp ⟨t, ht⟩
          refine ⟨_, by rw [hm]; rfl, ?_⟩
          rw [Json.textOk] at h3 ⊢
          rw [Json.textOkm_iff, List.forall_mem_cons, ← Json.textOkm_iff]
          exact ⟨⟨show Wire.utf8Valid "@type".toList = true by decide, by rw [Json.textOk, text_iff]; exact h1⟩, h3⟩
  shape a j h := by
    unfold anyJson at h
    split at h
    · split at h
      · cases h; exact ⟨trivial, by simp⟩
      · cases h
    · rw [Option.map_eq_some_iff] at h
      obtain ⟨ms, hm, rfl⟩ := h
      obtain ⟨⟨t, hj⟩, -⟩ := he.members _ _ _ hm
      exact ⟨⟨trivial, jtext_nums hj⟩, by simp⟩
  means a j h hg := by
    obtain ⟨url, val⟩ := a
    unfold anyJson at h
    simp only at h
    split at h
    · rename_i hu
      split at h
      · rename_i hv
        cases h
        subst hu hv
        exact ⟨[], rfl, .inl ⟨rfl, rfl⟩⟩
      · cases h
    · rw [Option.map_eq_some_iff] at h
      obtain ⟨ms, hm, rfl⟩ := h
      obtain ⟨-, hk⟩ := he.members _ _ _ hm
      refine ⟨_, rfl, .inr (.inr ⟨?_, ?_⟩)⟩
      · unfold occJ
        rw [List.filter_cons_of_pos (by rw [decide_eq_true_eq]; exact .inl rfl), List.filter_eq_nil_iff.mpr, List.map_cons, List.map_nil]
        intro m hmm
        have := hk m hmm
        rw [decide_eq_true_eq, show camel "@type".toList = "@type".toList from by decide, or_self]
        exact this
      · rw [List.filter_cons_of_neg (by rw [decide_eq_true_eq]; exact fun h => h rfl), List.filter_eq_self.mpr]
        · exact hg ms hm
        · intro m hmm
          exact decide_eq_true (hk m hmm)

/-- `occJ_at` and its like, with the names written out. -/
theorem occAt {f n : String} {x : Option Json} {l1 l2 : List (String × Option Json)} {n1 n2 : List String} (h : Named f n)
    (e1 : l1.map (·.1) = n1) (e2 : l2.map (·.1) = n2) (h12 : ∀ k ∈ n1 ++ n2, ¬ Named f k) :
    occJ f (members (l1 ++ (n, x) :: l2)) = x.toList :=
  occJ_at h (fun k hk => h12 k (List.mem_append_left _ (e1 ▸ hk))) (fun k hk => h12 k (List.mem_append_right _ (e2 ▸ hk)))

theorem knownOf {m : String} (e : Env) {l : List (String × Option Json)} {ns : List String} (hl : l.map (·.1) = ns)
    (h : ∀ n ∈ ns, ∃ d ∈ published, d.1 = m ∧ ∃ x ∈ d.2, n.toList = camel x.1.toList) : KnownJ e m (members l) :=
  known e (hl ▸ h)

theorem textOf {l : List (String × Option Json)} {ns : List String} (hl : l.map (·.1) = ns)
    (hn : ∀ n ∈ ns, Wire.utf8Valid n.toList = true) : (Json.obj (members l)).textOk = true ↔ ∀ p ∈ l, textO p.2 :=
  members_text (hl ▸ hn)

theorem dataW {e : Env} (he : EnvOk e) : Writes (dataJson e) DataOk DataGo (DataJ e) := by
  have shape : ∀ (v : FilterableData) (j : Json), (dataJson e) v = some j ↔ ∃ x3 x4, mapM' (fun x => some (doubleJson e.fl x)) v.doubleArgs = some x3 ∧ optM timeJson v.creationTime = some x4 ∧ j = .obj (members [("tags", listV e.opts (v.tags.map Json.str)), ("stringArgs", mapV e.opts (v.stringArgs.map fun (x : Str × Str) => (x.1, Json.str x.2))), ("doubleArgs", mapV e.opts x3), ("creationTime", msgV e.opts x4)]) := by
    intro v j
    constructor
    · intro k0
      obtain ⟨x3, hx3, k1⟩ := Option.bind_eq_some_iff.mp k0
      clear k0
      rename' k1 => k0
      obtain ⟨x4, hx4, k1⟩ := Option.bind_eq_some_iff.mp k0
      clear k0
      rename' k1 => k0
      cases k0
      exact ⟨x3, x4, hx3, hx4, by simp only [putStr_eq, putInt_eq, putEnum_eq, putDouble_eq, putMsg_eq, putList_eq, putMap_eq, members, List.append_assoc, List.append_nil]⟩
    · rintro ⟨x3, x4, hx3, hx4, rfl⟩
      refine Option.bind_eq_some_iff.mpr ⟨x3, hx3, ?_⟩
      refine Option.bind_eq_some_iff.mpr ⟨x4, hx4, ?_⟩
      simp only [putStr_eq, putInt_eq, putEnum_eq, putDouble_eq, putMsg_eq, putList_eq, putMap_eq, members, List.append_assoc, List.append_nil]
  refine ⟨fun v => ?_, fun v j h => ?_, fun v j h hg => ?_⟩
  · constructor
    · rintro ⟨j, h, ht⟩
      obtain ⟨x3, x4, hx3, hx4, rfl⟩ := (shape v j).mp h
      rw [textOf (ns := ["tags", "stringArgs", "doubleArgs", "creationTime"]) rfl (by decide +kernel)] at ht
      simp only [List.forall_mem_cons] at ht
      obtain ⟨t1, t2, t3, t4, -⟩ := ht
      exact ⟨(listP_exact strW _ _).mp t1,
        (mapP_exact strW _ _).mp t2,
        (mapM'_exact (doubleW he) _ _).mp ⟨_, hx3, t3⟩,
        (optM_exact timeW _ _).mp ⟨_, hx4, t4⟩⟩
    · rintro ⟨o1, o2, o3, o4⟩
      obtain ⟨x3, hx3, t3⟩ := (mapM'_exact (doubleW he) e.opts _).mpr o3
      obtain ⟨x4, hx4, t4⟩ := (optM_exact timeW e.opts _).mpr o4
      refine ⟨_, (shape v _).mpr ⟨x3, x4, hx3, hx4, rfl⟩, ?_⟩
      rw [textOf (ns := ["tags", "stringArgs", "doubleArgs", "creationTime"]) rfl (by decide +kernel)]
      simp only [List.forall_mem_cons]
      exact ⟨(listP_exact strW _ _).mpr o1, (mapP_exact strW _ _).mpr o2, t3, t4, by simp⟩
  · obtain ⟨x3, x4, hx3, hx4, rfl⟩ := (shape v j).mp h
    refine ⟨members_nums ?_, by simp⟩
    simp only [List.forall_mem_cons]
    exact ⟨(listP_means strW e.opts _).1, (mapP_means strW e.opts _).1, (mapM'_means (doubleW he) e.opts hx3).1, (optM_means timeW e.opts hx4).1, by simp⟩
  · obtain ⟨x3, x4, hx3, hx4, rfl⟩ := (shape v j).mp h
    obtain ⟨gstringArgs, gdoubleArgs⟩ := hg
    refine ⟨_, rfl, knownOf e (ns := ["tags", "stringArgs", "doubleArgs", "creationTime"]) rfl (by decide +kernel), ⟨⟨1, by decide +kernel⟩, ?_⟩, ⟨⟨2, by decide +kernel⟩, ?_⟩, ⟨⟨3, by decide +kernel⟩, ?_⟩, ⟨⟨4, by decide +kernel⟩, ?_⟩⟩
    · have h0 : occJ "tags" (members [("tags", listV e.opts (v.tags.map Json.str)), ("stringArgs", mapV e.opts (v.stringArgs.map fun (x : Str × Str) => (x.1, Json.str x.2))), ("doubleArgs", mapV e.opts x3), ("creationTime", msgV e.opts x4)]) = (listV e.opts (v.tags.map Json.str)).toList :=
        occAt (f := "tags") (x := listV e.opts (v.tags.map Json.str)) (n := "tags") (l1 := [])
          (l2 := [("stringArgs", mapV e.opts (v.stringArgs.map fun (x : Str × Str) => (x.1, Json.str x.2))), ("doubleArgs", mapV e.opts x3), ("creationTime", msgV e.opts x4)]) (n1 := []) (n2 := ["stringArgs", "doubleArgs", "creationTime"])
          (by decide +kernel) rfl rfl (by decide +kernel)
      rw [h0]
      exact (listP_means strW e.opts _).2 (fun _ _ => trivial)
    · have h0 : occJ "string_args" (members [("tags", listV e.opts (v.tags.map Json.str)), ("stringArgs", mapV e.opts (v.stringArgs.map fun (x : Str × Str) => (x.1, Json.str x.2))), ("doubleArgs", mapV e.opts x3), ("creationTime", msgV e.opts x4)]) = (mapV e.opts (v.stringArgs.map fun (x : Str × Str) => (x.1, Json.str x.2))).toList :=
        occAt (f := "string_args") (x := mapV e.opts (v.stringArgs.map fun (x : Str × Str) => (x.1, Json.str x.2))) (n := "stringArgs") (l1 := [("tags", listV e.opts (v.tags.map Json.str))])
          (l2 := [("doubleArgs", mapV e.opts x3), ("creationTime", msgV e.opts x4)]) (n1 := ["tags"]) (n2 := ["doubleArgs", "creationTime"])
          (by decide +kernel) rfl rfl (by decide +kernel)
      rw [h0]
      exact (mapP_means strW e.opts _).2 gstringArgs
    · have h0 : occJ "double_args" (members [("tags", listV e.opts (v.tags.map Json.str)), ("stringArgs", mapV e.opts (v.stringArgs.map fun (x : Str × Str) => (x.1, Json.str x.2))), ("doubleArgs", mapV e.opts x3), ("creationTime", msgV e.opts x4)]) = (mapV e.opts x3).toList :=
        occAt (f := "double_args") (x := mapV e.opts x3) (n := "doubleArgs") (l1 := [("tags", listV e.opts (v.tags.map Json.str)), ("stringArgs", mapV e.opts (v.stringArgs.map fun (x : Str × Str) => (x.1, Json.str x.2)))])
          (l2 := [("creationTime", msgV e.opts x4)]) (n1 := ["tags", "stringArgs"]) (n2 := ["creationTime"])
          (by decide +kernel) rfl rfl (by decide +kernel)
      rw [h0]
      exact (mapM'_means (doubleW he) e.opts hx3).2 gdoubleArgs
    · have h0 : occJ "creation_time" (members [("tags", listV e.opts (v.tags.map Json.str)), ("stringArgs", mapV e.opts (v.stringArgs.map fun (x : Str × Str) => (x.1, Json.str x.2))), ("doubleArgs", mapV e.opts x3), ("creationTime", msgV e.opts x4)]) = (msgV e.opts x4).toList :=
        occAt (f := "creation_time") (x := msgV e.opts x4) (n := "creationTime") (l1 := [("tags", listV e.opts (v.tags.map Json.str)), ("stringArgs", mapV e.opts (v.stringArgs.map fun (x : Str × Str) => (x.1, Json.str x.2))), ("doubleArgs", mapV e.opts x3)])
          (l2 := []) (n1 := ["tags", "stringArgs", "doubleArgs"]) (n2 := [])
          (by decide +kernel) rfl rfl (by decide +kernel)
      rw [h0]
      exact (optM_means timeW e.opts hx4).2 (fun _ _ => trivial)

theorem ticketW {e : Env} (he : EnvOk e) : Writes (ticketJson e) (TicketOk e) (TicketGo e) (TicketJ e) := by
  have shape : ∀ (v : Ticket) (j : Json), (ticketJson e) v = some j ↔ ∃ x2 x3 x4, optM timeJson v.expirationTime = some x2 ∧ optM (dataJson e) v.attributes = some x3 ∧ mapM' (anyJson e) v.extensions = some x4 ∧ j = .obj (members [("id", strV e.opts v.id), ("expirationTime", msgV e.opts x2), ("attributes", msgV e.opts x3), ("extensions", mapV e.opts x4)]) := by
    intro v j
    constructor
    · intro k0
      obtain ⟨x2, hx2, k1⟩ := Option.bind_eq_some_iff.mp k0
      clear k0
      rename' k1 => k0
      obtain ⟨x3, hx3, k1⟩ := Option.bind_eq_some_iff.mp k0
      clear k0
      rename' k1 => k0
      obtain ⟨x4, hx4, k1⟩ := Option.bind_eq_some_iff.mp k0
      clear k0
      rename' k1 => k0
      cases k0
      exact ⟨x2, x3, x4, hx2, hx3, hx4, by simp only [putStr_eq, putInt_eq, putEnum_eq, putDouble_eq, putMsg_eq, putList_eq, putMap_eq, members, List.append_assoc, List.append_nil]⟩
    · rintro ⟨x2, x3, x4, hx2, hx3, hx4, rfl⟩
      refine Option.bind_eq_some_iff.mpr ⟨x2, hx2, ?_⟩
      refine Option.bind_eq_some_iff.mpr ⟨x3, hx3, ?_⟩
      refine Option.bind_eq_some_iff.mpr ⟨x4, hx4, ?_⟩
      simp only [putStr_eq, putInt_eq, putEnum_eq, putDouble_eq, putMsg_eq, putList_eq, putMap_eq, members, List.append_assoc, List.append_nil]
  refine ⟨fun v => ?_, fun v j h => ?_, fun v j h hg => ?_⟩
  · constructor
    · rintro ⟨j, h, ht⟩
      obtain ⟨x2, x3, x4, hx2, hx3, hx4, rfl⟩ := (shape v j).mp h
      rw [textOf (ns := ["id", "expirationTime", "attributes", "extensions"]) rfl (by decide +kernel)] at ht
      simp only [List.forall_mem_cons] at ht
      obtain ⟨t1, t2, t3, t4, -⟩ := ht
      exact ⟨((strV_ok _ _).2.2).mp t1,
        (optM_exact timeW _ _).mp ⟨_, hx2, t2⟩,
        (optM_exact (dataW he) _ _).mp ⟨_, hx3, t3⟩,
        (mapM'_exact (anyW he) _ _).mp ⟨_, hx4, t4⟩⟩
    · rintro ⟨o1, o2, o3, o4⟩
      obtain ⟨x2, hx2, t2⟩ := (optM_exact timeW e.opts _).mpr o2
      obtain ⟨x3, hx3, t3⟩ := (optM_exact (dataW he) e.opts _).mpr o3
      obtain ⟨x4, hx4, t4⟩ := (mapM'_exact (anyW he) e.opts _).mpr o4
      refine ⟨_, (shape v _).mpr ⟨x2, x3, x4, hx2, hx3, hx4, rfl⟩, ?_⟩
      rw [textOf (ns := ["id", "expirationTime", "attributes", "extensions"]) rfl (by decide +kernel)]
      simp only [List.forall_mem_cons]
      exact ⟨((strV_ok _ _).2.2).mpr o1, t2, t3, t4, by simp⟩
  · obtain ⟨x2, x3, x4, hx2, hx3, hx4, rfl⟩ := (shape v j).mp h
    refine ⟨members_nums ?_, by simp⟩
    simp only [List.forall_mem_cons]
    exact ⟨(strV_ok _ _).2.1, (optM_means timeW e.opts hx2).1, (optM_means (dataW he) e.opts hx3).1, (mapM'_means (anyW he) e.opts hx4).1, by simp⟩
  · obtain ⟨x2, x3, x4, hx2, hx3, hx4, rfl⟩ := (shape v j).mp h
    obtain ⟨gattributes, gextensions⟩ := hg
    refine ⟨_, rfl, knownOf e (ns := ["id", "expirationTime", "attributes", "extensions"]) rfl (by decide +kernel), ⟨⟨1, by decide +kernel⟩, ?_⟩, ⟨⟨2, by decide +kernel⟩, ?_⟩, ⟨⟨3, by decide +kernel⟩, ?_⟩, ⟨⟨4, by decide +kernel⟩, ?_⟩⟩
    · have h0 : occJ "id" (members [("id", strV e.opts v.id), ("expirationTime", msgV e.opts x2), ("attributes", msgV e.opts x3), ("extensions", mapV e.opts x4)]) = (strV e.opts v.id).toList :=
        occAt (f := "id") (x := strV e.opts v.id) (n := "id") (l1 := [])
          (l2 := [("expirationTime", msgV e.opts x2), ("attributes", msgV e.opts x3), ("extensions", mapV e.opts x4)]) (n1 := []) (n2 := ["expirationTime", "attributes", "extensions"])
          (by decide +kernel) rfl rfl (by decide +kernel)
      rw [h0]
      exact (strV_ok _ _).1
    · have h0 : occJ "expiration_time" (members [("id", strV e.opts v.id), ("expirationTime", msgV e.opts x2), ("attributes", msgV e.opts x3), ("extensions", mapV e.opts x4)]) = (msgV e.opts x2).toList :=
        occAt (f := "expiration_time") (x := msgV e.opts x2) (n := "expirationTime") (l1 := [("id", strV e.opts v.id)])
          (l2 := [("attributes", msgV e.opts x3), ("extensions", mapV e.opts x4)]) (n1 := ["id"]) (n2 := ["attributes", "extensions"])
          (by decide +kernel) rfl rfl (by decide +kernel)
      rw [h0]
      exact (optM_means timeW e.opts hx2).2 (fun _ _ => trivial)
    · have h0 : occJ "attributes" (members [("id", strV e.opts v.id), ("expirationTime", msgV e.opts x2), ("attributes", msgV e.opts x3), ("extensions", mapV e.opts x4)]) = (msgV e.opts x3).toList :=
        occAt (f := "attributes") (x := msgV e.opts x3) (n := "attributes") (l1 := [("id", strV e.opts v.id), ("expirationTime", msgV e.opts x2)])
          (l2 := [("extensions", mapV e.opts x4)]) (n1 := ["id", "expirationTime"]) (n2 := ["extensions"])
          (by decide +kernel) rfl rfl (by decide +kernel)
      rw [h0]
      exact (optM_means (dataW he) e.opts hx3).2 gattributes
    · have h0 : occJ "extensions" (members [("id", strV e.opts v.id), ("expirationTime", msgV e.opts x2), ("attributes", msgV e.opts x3), ("extensions", mapV e.opts x4)]) = (mapV e.opts x4).toList :=
        occAt (f := "extensions") (x := mapV e.opts x4) (n := "extensions") (l1 := [("id", strV e.opts v.id), ("expirationTime", msgV e.opts x2), ("attributes", msgV e.opts x3)])
          (l2 := []) (n1 := ["id", "expirationTime", "attributes"]) (n2 := [])
          (by decide +kernel) rfl rfl (by decide +kernel)
      rw [h0]
      exact (mapM'_means (anyW he) e.opts hx4).2 gextensions

theorem assignmentW {e : Env} (he : EnvOk e) : Writes (assignmentJson e) (AssignmentOk e) (AssignmentGo e) (AssignmentJ e) := by
  have shape : ∀ (v : Assignment) (j : Json), (assignmentJson e) v = some j ↔ ∃ x2, mapM' (anyJson e) v.extensions = some x2 ∧ j = .obj (members [("connection", strV e.opts v.connection), ("extensions", mapV e.opts x2)]) := by
    intro v j
    constructor
    · intro k0
      obtain ⟨x2, hx2, k1⟩ := Option.bind_eq_some_iff.mp k0
      clear k0
      rename' k1 => k0
      cases k0
      exact ⟨x2, hx2, by simp only [putStr_eq, putInt_eq, putEnum_eq, putDouble_eq, putMsg_eq, putList_eq, putMap_eq, members, List.append_assoc, List.append_nil]⟩
    · rintro ⟨x2, hx2, rfl⟩
      refine Option.bind_eq_some_iff.mpr ⟨x2, hx2, ?_⟩
      simp only [putStr_eq, putInt_eq, putEnum_eq, putDouble_eq, putMsg_eq, putList_eq, putMap_eq, members, List.append_assoc, List.append_nil]
  refine ⟨fun v => ?_, fun v j h => ?_, fun v j h hg => ?_⟩
  · constructor
    · rintro ⟨j, h, ht⟩
      obtain ⟨x2, hx2, rfl⟩ := (shape v j).mp h
      rw [textOf (ns := ["connection", "extensions"]) rfl (by decide +kernel)] at ht
      simp only [List.forall_mem_cons] at ht
      obtain ⟨t1, t2, -⟩ := ht
      exact ⟨((strV_ok _ _).2.2).mp t1,
        (mapM'_exact (anyW he) _ _).mp ⟨_, hx2, t2⟩⟩
    · rintro ⟨o1, o2⟩
      obtain ⟨x2, hx2, t2⟩ := (mapM'_exact (anyW he) e.opts _).mpr o2
      refine ⟨_, (shape v _).mpr ⟨x2, hx2, rfl⟩, ?_⟩
      rw [textOf (ns := ["connection", "extensions"]) rfl (by decide +kernel)]
      simp only [List.forall_mem_cons]
      exact ⟨((strV_ok _ _).2.2).mpr o1, t2, by simp⟩
  · obtain ⟨x2, hx2, rfl⟩ := (shape v j).mp h
    refine ⟨members_nums ?_, by simp⟩
    simp only [List.forall_mem_cons]
    exact ⟨(strV_ok _ _).2.1, (mapM'_means (anyW he) e.opts hx2).1, by simp⟩
  · obtain ⟨x2, hx2, rfl⟩ := (shape v j).mp h
    have gextensions := hg
    refine ⟨_, rfl, knownOf e (ns := ["connection", "extensions"]) rfl (by decide +kernel), ⟨⟨1, by decide +kernel⟩, ?_⟩, ⟨⟨2, by decide +kernel⟩, ?_⟩⟩
    · have h0 : occJ "connection" (members [("connection", strV e.opts v.connection), ("extensions", mapV e.opts x2)]) = (strV e.opts v.connection).toList :=
        occAt (f := "connection") (x := strV e.opts v.connection) (n := "connection") (l1 := [])
          (l2 := [("extensions", mapV e.opts x2)]) (n1 := []) (n2 := ["extensions"])
          (by decide +kernel) rfl rfl (by decide +kernel)
      rw [h0]
      exact (strV_ok _ _).1
    · have h0 : occJ "extensions" (members [("connection", strV e.opts v.connection), ("extensions", mapV e.opts x2)]) = (mapV e.opts x2).toList :=
        occAt (f := "extensions") (x := mapV e.opts x2) (n := "extensions") (l1 := [("connection", strV e.opts v.connection)])
          (l2 := []) (n1 := ["connection"]) (n2 := [])
          (by decide +kernel) rfl rfl (by decide +kernel)
      rw [h0]
      exact (mapM'_means (anyW he) e.opts hx2).2 gextensions

theorem rosterW {e : Env} (he : EnvOk e) : Writes (rosterJson e) (RosterOk e) (RosterGo e) (RosterJ e) := by
  have shape : ∀ (v : Roster) (j : Json), (rosterJson e) v = some j ↔ ∃ x2 x3 x4, optM (assignmentJson e) v.assignment = some x2 ∧ v.tickets.mapM (ticketJson e) = some x3 ∧ mapM' (anyJson e) v.extensions = some x4 ∧ j = .obj (members [("name", strV e.opts v.name), ("assignment", msgV e.opts x2), ("tickets", listV e.opts x3), ("extensions", mapV e.opts x4)]) := by
    intro v j
    constructor
    · intro k0
      obtain ⟨x2, hx2, k1⟩ := Option.bind_eq_some_iff.mp k0
      clear k0
      rename' k1 => k0
      obtain ⟨x3, hx3, k1⟩ := Option.bind_eq_some_iff.mp k0
      clear k0
      rename' k1 => k0
      obtain ⟨x4, hx4, k1⟩ := Option.bind_eq_some_iff.mp k0
      clear k0
      rename' k1 => k0
      cases k0
      exact ⟨x2, x3, x4, hx2, hx3, hx4, by simp only [putStr_eq, putInt_eq, putEnum_eq, putDouble_eq, putMsg_eq, putList_eq, putMap_eq, members, List.append_assoc, List.append_nil]⟩
    · rintro ⟨x2, x3, x4, hx2, hx3, hx4, rfl⟩
      refine Option.bind_eq_some_iff.mpr ⟨x2, hx2, ?_⟩
      refine Option.bind_eq_some_iff.mpr ⟨x3, hx3, ?_⟩
      refine Option.bind_eq_some_iff.mpr ⟨x4, hx4, ?_⟩
      simp only [putStr_eq, putInt_eq, putEnum_eq, putDouble_eq, putMsg_eq, putList_eq, putMap_eq, members, List.append_assoc, List.append_nil]
  refine ⟨fun v => ?_, fun v j h => ?_, fun v j h hg => ?_⟩
  · constructor
    · rintro ⟨j, h, ht⟩
      obtain ⟨x2, x3, x4, hx2, hx3, hx4, rfl⟩ := (shape v j).mp h
      rw [textOf (ns := ["name", "assignment", "tickets", "extensions"]) rfl (by decide +kernel)] at ht
      simp only [List.forall_mem_cons] at ht
      obtain ⟨t1, t2, t3, t4, -⟩ := ht
      exact ⟨((strV_ok _ _).2.2).mp t1,
        (optM_exact (assignmentW he) _ _).mp ⟨_, hx2, t2⟩,
        (listM_exact (ticketW he) _ _).mp ⟨_, hx3, t3⟩,
        (mapM'_exact (anyW he) _ _).mp ⟨_, hx4, t4⟩⟩
    · rintro ⟨o1, o2, o3, o4⟩
      obtain ⟨x2, hx2, t2⟩ := (optM_exact (assignmentW he) e.opts _).mpr o2
      obtain ⟨x3, hx3, t3⟩ := (listM_exact (ticketW he) e.opts _).mpr o3
      obtain ⟨x4, hx4, t4⟩ := (mapM'_exact (anyW he) e.opts _).mpr o4
      refine ⟨_, (shape v _).mpr ⟨x2, x3, x4, hx2, hx3, hx4, rfl⟩, ?_⟩
      rw [textOf (ns := ["name", "assignment", "tickets", "extensions"]) rfl (by decide +kernel)]
      simp only [List.forall_mem_cons]
      exact ⟨((strV_ok _ _).2.2).mpr o1, t2, t3, t4, by simp⟩
  · obtain ⟨x2, x3, x4, hx2, hx3, hx4, rfl⟩ := (shape v j).mp h
    refine ⟨members_nums ?_, by simp⟩
    simp only [List.forall_mem_cons]
    exact ⟨(strV_ok _ _).2.1, (optM_means (assignmentW he) e.opts hx2).1, (listM_means (ticketW he) e.opts hx3).1, (mapM'_means (anyW he) e.opts hx4).1, by simp⟩
  · obtain ⟨x2, x3, x4, hx2, hx3, hx4, rfl⟩ := (shape v j).mp h
    obtain ⟨gassignment, gtickets, gextensions⟩ := hg
    refine ⟨_, rfl, knownOf e (ns := ["name", "assignment", "tickets", "extensions"]) rfl (by decide +kernel), ⟨⟨1, by decide +kernel⟩, ?_⟩, ⟨⟨2, by decide +kernel⟩, ?_⟩, ⟨⟨3, by decide +kernel⟩, ?_⟩, ⟨⟨4, by decide +kernel⟩, ?_⟩⟩
    · have h0 : occJ "name" (members [("name", strV e.opts v.name), ("assignment", msgV e.opts x2), ("tickets", listV e.opts x3), ("extensions", mapV e.opts x4)]) = (strV e.opts v.name).toList :=
        occAt (f := "name") (x := strV e.opts v.name) (n := "name") (l1 := [])
          (l2 := [("assignment", msgV e.opts x2), ("tickets", listV e.opts x3), ("extensions", mapV e.opts x4)]) (n1 := []) (n2 := ["assignment", "tickets", "extensions"])
          (by decide +kernel) rfl rfl (by decide +kernel)
      rw [h0]
      exact (strV_ok _ _).1
    · have h0 : occJ "assignment" (members [("name", strV e.opts v.name), ("assignment", msgV e.opts x2), ("tickets", listV e.opts x3), ("extensions", mapV e.opts x4)]) = (msgV e.opts x2).toList :=
        occAt (f := "assignment") (x := msgV e.opts x2) (n := "assignment") (l1 := [("name", strV e.opts v.name)])
          (l2 := [("tickets", listV e.opts x3), ("extensions", mapV e.opts x4)]) (n1 := ["name"]) (n2 := ["tickets", "extensions"])
          (by decide +kernel) rfl rfl (by decide +kernel)
      rw [h0]
      exact (optM_means (assignmentW he) e.opts hx2).2 gassignment
    · have h0 : occJ "tickets" (members [("name", strV e.opts v.name), ("assignment", msgV e.opts x2), ("tickets", listV e.opts x3), ("extensions", mapV e.opts x4)]) = (listV e.opts x3).toList :=
        occAt (f := "tickets") (x := listV e.opts x3) (n := "tickets") (l1 := [("name", strV e.opts v.name), ("assignment", msgV e.opts x2)])
          (l2 := [("extensions", mapV e.opts x4)]) (n1 := ["name", "assignment"]) (n2 := ["extensions"])
          (by decide +kernel) rfl rfl (by decide +kernel)
      rw [h0]
      exact (listM_means (ticketW he) e.opts hx3).2 gtickets
    · have h0 : occJ "extensions" (members [("name", strV e.opts v.name), ("assignment", msgV e.opts x2), ("tickets", listV e.opts x3), ("extensions", mapV e.opts x4)]) = (mapV e.opts x4).toList :=
        occAt (f := "extensions") (x := mapV e.opts x4) (n := "extensions") (l1 := [("name", strV e.opts v.name), ("assignment", msgV e.opts x2), ("tickets", listV e.opts x3)])
          (l2 := []) (n1 := ["name", "assignment", "tickets"]) (n2 := [])
          (by decide +kernel) rfl rfl (by decide +kernel)
      rw [h0]
      exact (mapM'_means (anyW he) e.opts hx4).2 gextensions

theorem tagFilterW {e : Env} (he : EnvOk e) : Writes (fun f => some (tagFilterJson e f)) (fun f => IsText f.tag) (fun _ => True) (TagFilterJ e) := by
  have shape : ∀ (v : TagPresentFilter) (j : Json), (fun f => some (tagFilterJson e f)) v = some j ↔ j = .obj (members [("tag", strV e.opts v.tag)]) := by
    intro v j
    constructor
    · intro k0
      cases k0
      simp only [tagFilterJson, putStr_eq, putInt_eq, putEnum_eq, putDouble_eq, putMsg_eq, putList_eq, putMap_eq, members, List.append_assoc, List.append_nil]
    · rintro rfl
      simp only [tagFilterJson, putStr_eq, putInt_eq, putEnum_eq, putDouble_eq, putMsg_eq, putList_eq, putMap_eq, members, List.append_assoc, List.append_nil]
  refine ⟨fun v => ?_, fun v j h => ?_, fun v j h hg => ?_⟩
  · constructor
    · rintro ⟨j, h, ht⟩
      have hj := (shape v j).mp h
      subst hj
      rw [textOf (ns := ["tag"]) rfl (by decide +kernel)] at ht
      simp only [List.forall_mem_cons] at ht
      obtain ⟨t1, -⟩ := ht
      exact ((strV_ok _ _).2.2).mp t1
    · intro o1
      refine ⟨_, (shape v _).mpr rfl, ?_⟩
      rw [textOf (ns := ["tag"]) rfl (by decide +kernel)]
      simp only [List.forall_mem_cons]
      exact ⟨((strV_ok _ _).2.2).mpr o1, by simp⟩
  · have hj := (shape v j).mp h
    subst hj
    refine ⟨members_nums ?_, by simp⟩
    simp only [List.forall_mem_cons]
    exact ⟨(strV_ok _ _).2.1, by simp⟩
  · have hj := (shape v j).mp h
    subst hj
    refine ⟨_, rfl, knownOf e (ns := ["tag"]) rfl (by decide +kernel), ⟨⟨1, by decide +kernel⟩, ?_⟩⟩
    · have h0 : occJ "tag" (members [("tag", strV e.opts v.tag)]) = (strV e.opts v.tag).toList :=
        occAt (f := "tag") (x := strV e.opts v.tag) (n := "tag") (l1 := [])
          (l2 := []) (n1 := []) (n2 := [])
          (by decide +kernel) rfl rfl (by decide +kernel)
      rw [h0]
      exact (strV_ok _ _).1

theorem strFilterW {e : Env} (he : EnvOk e) : Writes (fun f => some (strFilterJson e f)) (fun f => IsText f.stringArg ∧ IsText f.value) (fun _ => True) (StrFilterJ e) := by
  have shape : ∀ (v : StringEqualsFilter) (j : Json), (fun f => some (strFilterJson e f)) v = some j ↔ j = .obj (members [("stringArg", strV e.opts v.stringArg), ("value", strV e.opts v.value)]) := by
    intro v j
    constructor
    · intro k0
      cases k0
      simp only [strFilterJson, putStr_eq, putInt_eq, putEnum_eq, putDouble_eq, putMsg_eq, putList_eq, putMap_eq, members, List.append_assoc, List.append_nil]
    · rintro rfl
      simp only [strFilterJson, putStr_eq, putInt_eq, putEnum_eq, putDouble_eq, putMsg_eq, putList_eq, putMap_eq, members, List.append_assoc, List.append_nil]
  refine ⟨fun v => ?_, fun v j h => ?_, fun v j h hg => ?_⟩
  · constructor
    · rintro ⟨j, h, ht⟩
      have hj := (shape v j).mp h
      subst hj
      rw [textOf (ns := ["stringArg", "value"]) rfl (by decide +kernel)] at ht
      simp only [List.forall_mem_cons] at ht
      obtain ⟨t1, t2, -⟩ := ht
      exact ⟨((strV_ok _ _).2.2).mp t1,
        ((strV_ok _ _).2.2).mp t2⟩
    · rintro ⟨o1, o2⟩
      refine ⟨_, (shape v _).mpr rfl, ?_⟩
      rw [textOf (ns := ["stringArg", "value"]) rfl (by decide +kernel)]
      simp only [List.forall_mem_cons]
      exact ⟨((strV_ok _ _).2.2).mpr o1, ((strV_ok _ _).2.2).mpr o2, by simp⟩
  · have hj := (shape v j).mp h
    subst hj
    refine ⟨members_nums ?_, by simp⟩
    simp only [List.forall_mem_cons]
    exact ⟨(strV_ok _ _).2.1, (strV_ok _ _).2.1, by simp⟩
  · have hj := (shape v j).mp h
    subst hj
    refine ⟨_, rfl, knownOf e (ns := ["stringArg", "value"]) rfl (by decide +kernel), ⟨⟨1, by decide +kernel⟩, ?_⟩, ⟨⟨2, by decide +kernel⟩, ?_⟩⟩
    · have h0 : occJ "string_arg" (members [("stringArg", strV e.opts v.stringArg), ("value", strV e.opts v.value)]) = (strV e.opts v.stringArg).toList :=
        occAt (f := "string_arg") (x := strV e.opts v.stringArg) (n := "stringArg") (l1 := [])
          (l2 := [("value", strV e.opts v.value)]) (n1 := []) (n2 := ["value"])
          (by decide +kernel) rfl rfl (by decide +kernel)
      rw [h0]
      exact (strV_ok _ _).1
    · have h0 : occJ "value" (members [("stringArg", strV e.opts v.stringArg), ("value", strV e.opts v.value)]) = (strV e.opts v.value).toList :=
        occAt (f := "value") (x := strV e.opts v.value) (n := "value") (l1 := [("stringArg", strV e.opts v.stringArg)])
          (l2 := []) (n1 := ["stringArg"]) (n2 := [])
          (by decide +kernel) rfl rfl (by decide +kernel)
      rw [h0]
      exact (strV_ok _ _).1

theorem dblFilterW {e : Env} (he : EnvOk e) : Writes (fun f => some (dblFilterJson e f)) (fun f => IsText f.doubleArg) DblFilterGo (DblFilterJ e) := by
  have shape : ∀ (v : DoubleRangeFilter) (j : Json), (fun f => some (dblFilterJson e f)) v = some j ↔ j = .obj (members [("doubleArg", strV e.opts v.doubleArg), ("minimum", doubleV e.fl e.opts v.minimum), ("maximum", doubleV e.fl e.opts v.maximum), ("bounds", enumV e.opts bounds v.bounds)]) := by
    intro v j
    constructor
    · intro k0
      cases k0
      simp only [dblFilterJson, putStr_eq, putInt_eq, putEnum_eq, putDouble_eq, putMsg_eq, putList_eq, putMap_eq, members, List.append_assoc, List.append_nil]
    · rintro rfl
      simp only [dblFilterJson, putStr_eq, putInt_eq, putEnum_eq, putDouble_eq, putMsg_eq, putList_eq, putMap_eq, members, List.append_assoc, List.append_nil]
  refine ⟨fun v => ?_, fun v j h => ?_, fun v j h hg => ?_⟩
  · constructor
    · rintro ⟨j, h, ht⟩
      have hj := (shape v j).mp h
      subst hj
      rw [textOf (ns := ["doubleArg", "minimum", "maximum", "bounds"]) rfl (by decide +kernel)] at ht
      simp only [List.forall_mem_cons] at ht
      obtain ⟨t1, t2, t3, t4, -⟩ := ht
      exact ((strV_ok _ _).2.2).mp t1
    · intro o1
      refine ⟨_, (shape v _).mpr rfl, ?_⟩
      rw [textOf (ns := ["doubleArg", "minimum", "maximum", "bounds"]) rfl (by decide +kernel)]
      simp only [List.forall_mem_cons]
      exact ⟨((strV_ok _ _).2.2).mpr o1, (doubleV_ok he _).2.2, (doubleV_ok he _).2.2, (enumV_ok e bounds_names (by decide) _).2.2, by simp⟩
  · have hj := (shape v j).mp h
    subst hj
    refine ⟨members_nums ?_, by simp⟩
    simp only [List.forall_mem_cons]
    exact ⟨(strV_ok _ _).2.1, (doubleV_ok he _).2.1, (doubleV_ok he _).2.1, (enumV_ok e bounds_names (by decide) _).2.1, by simp⟩
  · have hj := (shape v j).mp h
    subst hj
    obtain ⟨gminimum, gmaximum, gbounds⟩ := hg
    refine ⟨_, rfl, knownOf e (ns := ["doubleArg", "minimum", "maximum", "bounds"]) rfl (by decide +kernel), ⟨⟨1, by decide +kernel⟩, ?_⟩, ⟨⟨2, by decide +kernel⟩, ?_⟩, ⟨⟨3, by decide +kernel⟩, ?_⟩, ⟨⟨4, by decide +kernel⟩, ?_⟩⟩
    · have h0 : occJ "double_arg" (members [("doubleArg", strV e.opts v.doubleArg), ("minimum", doubleV e.fl e.opts v.minimum), ("maximum", doubleV e.fl e.opts v.maximum), ("bounds", enumV e.opts bounds v.bounds)]) = (strV e.opts v.doubleArg).toList :=
        occAt (f := "double_arg") (x := strV e.opts v.doubleArg) (n := "doubleArg") (l1 := [])
          (l2 := [("minimum", doubleV e.fl e.opts v.minimum), ("maximum", doubleV e.fl e.opts v.maximum), ("bounds", enumV e.opts bounds v.bounds)]) (n1 := []) (n2 := ["minimum", "maximum", "bounds"])
          (by decide +kernel) rfl rfl (by decide +kernel)
      rw [h0]
      exact (strV_ok _ _).1
    · have h0 : occJ "minimum" (members [("doubleArg", strV e.opts v.doubleArg), ("minimum", doubleV e.fl e.opts v.minimum), ("maximum", doubleV e.fl e.opts v.maximum), ("bounds", enumV e.opts bounds v.bounds)]) = (doubleV e.fl e.opts v.minimum).toList :=
        occAt (f := "minimum") (x := doubleV e.fl e.opts v.minimum) (n := "minimum") (l1 := [("doubleArg", strV e.opts v.doubleArg)])
          (l2 := [("maximum", doubleV e.fl e.opts v.maximum), ("bounds", enumV e.opts bounds v.bounds)]) (n1 := ["doubleArg"]) (n2 := ["maximum", "bounds"])
          (by decide +kernel) rfl rfl (by decide +kernel)
      rw [h0]
      exact (doubleV_ok he _).1 gminimum
    · have h0 : occJ "maximum" (members [("doubleArg", strV e.opts v.doubleArg), ("minimum", doubleV e.fl e.opts v.minimum), ("maximum", doubleV e.fl e.opts v.maximum), ("bounds", enumV e.opts bounds v.bounds)]) = (doubleV e.fl e.opts v.maximum).toList :=
        occAt (f := "maximum") (x := doubleV e.fl e.opts v.maximum) (n := "maximum") (l1 := [("doubleArg", strV e.opts v.doubleArg), ("minimum", doubleV e.fl e.opts v.minimum)])
          (l2 := [("bounds", enumV e.opts bounds v.bounds)]) (n1 := ["doubleArg", "minimum"]) (n2 := ["bounds"])
          (by decide +kernel) rfl rfl (by decide +kernel)
      rw [h0]
      exact (doubleV_ok he _).1 gmaximum
    · have h0 : occJ "bounds" (members [("doubleArg", strV e.opts v.doubleArg), ("minimum", doubleV e.fl e.opts v.minimum), ("maximum", doubleV e.fl e.opts v.maximum), ("bounds", enumV e.opts bounds v.bounds)]) = (enumV e.opts bounds v.bounds).toList :=
        occAt (f := "bounds") (x := enumV e.opts bounds v.bounds) (n := "bounds") (l1 := [("doubleArg", strV e.opts v.doubleArg), ("minimum", doubleV e.fl e.opts v.minimum), ("maximum", doubleV e.fl e.opts v.maximum)])
          (l2 := []) (n1 := ["doubleArg", "minimum", "maximum"]) (n2 := [])
          (by decide +kernel) rfl rfl (by decide +kernel)
      rw [h0]
      exact (enumV_ok e bounds_names (by decide) _).1 gbounds

theorem ctFilterW {e : Env} (he : EnvOk e) : Writes (ctFilterJson e) CtFilterOk CtFilterGo (CtFilterJ e) := by
  have shape : ∀ (v : CreationTimeRangeFilter) (j : Json), (ctFilterJson e) v = some j ↔ ∃ x1 x2, optM timeJson v.start = some x1 ∧ optM timeJson v.stop = some x2 ∧ j = .obj (members [("start", msgV e.opts x1), ("end", msgV e.opts x2), ("bounds", enumV e.opts bounds v.bounds)]) := by
    intro v j
    constructor
    · intro k0
      obtain ⟨x1, hx1, k1⟩ := Option.bind_eq_some_iff.mp k0
      clear k0
      rename' k1 => k0
      obtain ⟨x2, hx2, k1⟩ := Option.bind_eq_some_iff.mp k0
      clear k0
      rename' k1 => k0
      cases k0
      exact ⟨x1, x2, hx1, hx2, by simp only [putStr_eq, putInt_eq, putEnum_eq, putDouble_eq, putMsg_eq, putList_eq, putMap_eq, members, List.append_assoc, List.append_nil]⟩
    · rintro ⟨x1, x2, hx1, hx2, rfl⟩
      refine Option.bind_eq_some_iff.mpr ⟨x1, hx1, ?_⟩
      refine Option.bind_eq_some_iff.mpr ⟨x2, hx2, ?_⟩
      simp only [putStr_eq, putInt_eq, putEnum_eq, putDouble_eq, putMsg_eq, putList_eq, putMap_eq, members, List.append_assoc, List.append_nil]
  refine ⟨fun v => ?_, fun v j h => ?_, fun v j h hg => ?_⟩
  · constructor
    · rintro ⟨j, h, ht⟩
      obtain ⟨x1, x2, hx1, hx2, rfl⟩ := (shape v j).mp h
      rw [textOf (ns := ["start", "end", "bounds"]) rfl (by decide +kernel)] at ht
      simp only [List.forall_mem_cons] at ht
      obtain ⟨t1, t2, t3, -⟩ := ht
      exact ⟨(optM_exact timeW _ _).mp ⟨_, hx1, t1⟩,
        (optM_exact timeW _ _).mp ⟨_, hx2, t2⟩⟩
    · rintro ⟨o1, o2⟩
      obtain ⟨x1, hx1, t1⟩ := (optM_exact timeW e.opts _).mpr o1
      obtain ⟨x2, hx2, t2⟩ := (optM_exact timeW e.opts _).mpr o2
      refine ⟨_, (shape v _).mpr ⟨x1, x2, hx1, hx2, rfl⟩, ?_⟩
      rw [textOf (ns := ["start", "end", "bounds"]) rfl (by decide +kernel)]
      simp only [List.forall_mem_cons]
      exact ⟨t1, t2, (enumV_ok e bounds_names (by decide) _).2.2, by simp⟩
  · obtain ⟨x1, x2, hx1, hx2, rfl⟩ := (shape v j).mp h
    refine ⟨members_nums ?_, by simp⟩
    simp only [List.forall_mem_cons]
    exact ⟨(optM_means timeW e.opts hx1).1, (optM_means timeW e.opts hx2).1, (enumV_ok e bounds_names (by decide) _).2.1, by simp⟩
  · obtain ⟨x1, x2, hx1, hx2, rfl⟩ := (shape v j).mp h
    have gbounds := hg
    refine ⟨_, rfl, knownOf e (ns := ["start", "end", "bounds"]) rfl (by decide +kernel), ⟨⟨6, by decide +kernel⟩, ?_⟩, ⟨⟨7, by decide +kernel⟩, ?_⟩, ⟨⟨4, by decide +kernel⟩, ?_⟩⟩
    · have h0 : occJ "start" (members [("start", msgV e.opts x1), ("end", msgV e.opts x2), ("bounds", enumV e.opts bounds v.bounds)]) = (msgV e.opts x1).toList :=
        occAt (f := "start") (x := msgV e.opts x1) (n := "start") (l1 := [])
          (l2 := [("end", msgV e.opts x2), ("bounds", enumV e.opts bounds v.bounds)]) (n1 := []) (n2 := ["end", "bounds"])
          (by decide +kernel) rfl rfl (by decide +kernel)
      rw [h0]
      exact (optM_means timeW e.opts hx1).2 (fun _ _ => trivial)
    · have h0 : occJ "end" (members [("start", msgV e.opts x1), ("end", msgV e.opts x2), ("bounds", enumV e.opts bounds v.bounds)]) = (msgV e.opts x2).toList :=
        occAt (f := "end") (x := msgV e.opts x2) (n := "end") (l1 := [("start", msgV e.opts x1)])
          (l2 := [("bounds", enumV e.opts bounds v.bounds)]) (n1 := ["start"]) (n2 := ["bounds"])
          (by decide +kernel) rfl rfl (by decide +kernel)
      rw [h0]
      exact (optM_means timeW e.opts hx2).2 (fun _ _ => trivial)
    · have h0 : occJ "bounds" (members [("start", msgV e.opts x1), ("end", msgV e.opts x2), ("bounds", enumV e.opts bounds v.bounds)]) = (enumV e.opts bounds v.bounds).toList :=
        occAt (f := "bounds") (x := enumV e.opts bounds v.bounds) (n := "bounds") (l1 := [("start", msgV e.opts x1), ("end", msgV e.opts x2)])
          (l2 := []) (n1 := ["start", "end"]) (n2 := [])
          (by decide +kernel) rfl rfl (by decide +kernel)
      rw [h0]
      exact (enumV_ok e bounds_names (by decide) _).1 gbounds

theorem poolW {e : Env} (he : EnvOk e) : Writes (poolJson e) (PoolOk e) (PoolGo e) (PoolJ e) := by
  have shape : ∀ (v : Pool) (j : Json), (poolJson e) v = some j ↔ ∃ x5 x6 x7, optM (ctFilterJson e) v.creationTimeRangeFilter = some x5 ∧ optM (rosterJson e) v.participants = some x6 ∧ mapM' (anyJson e) v.extensions = some x7 ∧ j = .obj (members [("name", strV e.opts v.name), ("tagPresentFilters", listV e.opts (v.tagPresentFilters.map (tagFilterJson e))), ("stringEqualsFilters", listV e.opts (v.stringEqualsFilters.map (strFilterJson e))), ("doubleRangeFilters", listV e.opts (v.doubleRangeFilters.map (dblFilterJson e))), ("creationTimeRangeFilter", msgV e.opts x5), ("participants", msgV e.opts x6), ("extensions", mapV e.opts x7)]) := by
    intro v j
    constructor
    · intro k0
      obtain ⟨x5, hx5, k1⟩ := Option.bind_eq_some_iff.mp k0
      clear k0
      rename' k1 => k0
      obtain ⟨x6, hx6, k1⟩ := Option.bind_eq_some_iff.mp k0
      clear k0
      rename' k1 => k0
      obtain ⟨x7, hx7, k1⟩ := Option.bind_eq_some_iff.mp k0
      clear k0
      rename' k1 => k0
      cases k0
      exact ⟨x5, x6, x7, hx5, hx6, hx7, by simp only [putStr_eq, putInt_eq, putEnum_eq, putDouble_eq, putMsg_eq, putList_eq, putMap_eq, members, List.append_assoc, List.append_nil]⟩
    · rintro ⟨x5, x6, x7, hx5, hx6, hx7, rfl⟩
      refine Option.bind_eq_some_iff.mpr ⟨x5, hx5, ?_⟩
      refine Option.bind_eq_some_iff.mpr ⟨x6, hx6, ?_⟩
      refine Option.bind_eq_some_iff.mpr ⟨x7, hx7, ?_⟩
      simp only [putStr_eq, putInt_eq, putEnum_eq, putDouble_eq, putMsg_eq, putList_eq, putMap_eq, members, List.append_assoc, List.append_nil]
  refine ⟨fun v => ?_, fun v j h => ?_, fun v j h hg => ?_⟩
  · constructor
    · rintro ⟨j, h, ht⟩
      obtain ⟨x5, x6, x7, hx5, hx6, hx7, rfl⟩ := (shape v j).mp h
      rw [textOf (ns := ["name", "tagPresentFilters", "stringEqualsFilters", "doubleRangeFilters", "creationTimeRangeFilter", "participants", "extensions"]) rfl (by decide +kernel)] at ht
      simp only [List.forall_mem_cons] at ht
      obtain ⟨t1, t2, t3, t4, t5, t6, t7, -⟩ := ht
      exact ⟨((strV_ok _ _).2.2).mp t1,
        (listP_exact (tagFilterW he) _ _).mp t2,
        (listP_exact (strFilterW he) _ _).mp t3,
        (listP_exact (dblFilterW he) _ _).mp t4,
        (optM_exact (ctFilterW he) _ _).mp ⟨_, hx5, t5⟩,
        (optM_exact (rosterW he) _ _).mp ⟨_, hx6, t6⟩,
        (mapM'_exact (anyW he) _ _).mp ⟨_, hx7, t7⟩⟩
    · rintro ⟨o1, o2, o3, o4, o5, o6, o7⟩
      obtain ⟨x5, hx5, t5⟩ := (optM_exact (ctFilterW he) e.opts _).mpr o5
      obtain ⟨x6, hx6, t6⟩ := (optM_exact (rosterW he) e.opts _).mpr o6
      obtain ⟨x7, hx7, t7⟩ := (mapM'_exact (anyW he) e.opts _).mpr o7
      refine ⟨_, (shape v _).mpr ⟨x5, x6, x7, hx5, hx6, hx7, rfl⟩, ?_⟩
      rw [textOf (ns := ["name", "tagPresentFilters", "stringEqualsFilters", "doubleRangeFilters", "creationTimeRangeFilter", "participants", "extensions"]) rfl (by decide +kernel)]
      simp only [List.forall_mem_cons]
      exact ⟨((strV_ok _ _).2.2).mpr o1, (listP_exact (tagFilterW he) _ _).mpr o2, (listP_exact (strFilterW he) _ _).mpr o3, (listP_exact (dblFilterW he) _ _).mpr o4, t5, t6, t7, by simp⟩
  · obtain ⟨x5, x6, x7, hx5, hx6, hx7, rfl⟩ := (shape v j).mp h
    refine ⟨members_nums ?_, by simp⟩
    simp only [List.forall_mem_cons]
    exact ⟨(strV_ok _ _).2.1, (listP_means (tagFilterW he) e.opts _).1, (listP_means (strFilterW he) e.opts _).1, (listP_means (dblFilterW he) e.opts _).1, (optM_means (ctFilterW he) e.opts hx5).1, (optM_means (rosterW he) e.opts hx6).1, (mapM'_means (anyW he) e.opts hx7).1, by simp⟩
  · obtain ⟨x5, x6, x7, hx5, hx6, hx7, rfl⟩ := (shape v j).mp h
    obtain ⟨gdoubleRangeFilters, gcreationTimeRangeFilter, gparticipants, gextensions⟩ := hg
    refine ⟨_, rfl, knownOf e (ns := ["name", "tagPresentFilters", "stringEqualsFilters", "doubleRangeFilters", "creationTimeRangeFilter", "participants", "extensions"]) rfl (by decide +kernel), ⟨⟨1, by decide +kernel⟩, ?_⟩, ⟨⟨2, by decide +kernel⟩, ?_⟩, ⟨⟨3, by decide +kernel⟩, ?_⟩, ⟨⟨4, by decide +kernel⟩, ?_⟩, ⟨⟨5, by decide +kernel⟩, ?_⟩, ⟨⟨6, by decide +kernel⟩, ?_⟩, ⟨⟨7, by decide +kernel⟩, ?_⟩⟩
    · have h0 : occJ "name" (members [("name", strV e.opts v.name), ("tagPresentFilters", listV e.opts (v.tagPresentFilters.map (tagFilterJson e))), ("stringEqualsFilters", listV e.opts (v.stringEqualsFilters.map (strFilterJson e))), ("doubleRangeFilters", listV e.opts (v.doubleRangeFilters.map (dblFilterJson e))), ("creationTimeRangeFilter", msgV e.opts x5), ("participants", msgV e.opts x6), ("extensions", mapV e.opts x7)]) = (strV e.opts v.name).toList :=
        occAt (f := "name") (x := strV e.opts v.name) (n := "name") (l1 := [])
          (l2 := [("tagPresentFilters", listV e.opts (v.tagPresentFilters.map (tagFilterJson e))), ("stringEqualsFilters", listV e.opts (v.stringEqualsFilters.map (strFilterJson e))), ("doubleRangeFilters", listV e.opts (v.doubleRangeFilters.map (dblFilterJson e))), ("creationTimeRangeFilter", msgV e.opts x5), ("participants", msgV e.opts x6), ("extensions", mapV e.opts x7)]) (n1 := []) (n2 := ["tagPresentFilters", "stringEqualsFilters", "doubleRangeFilters", "creationTimeRangeFilter", "participants", "extensions"])
          (by decide +kernel) rfl rfl (by decide +kernel)
      rw [h0]
      exact (strV_ok _ _).1
    · have h0 : occJ "tag_present_filters" (members [("name", strV e.opts v.name), ("tagPresentFilters", listV e.opts (v.tagPresentFilters.map (tagFilterJson e))), ("stringEqualsFilters", listV e.opts (v.stringEqualsFilters.map (strFilterJson e))), ("doubleRangeFilters", listV e.opts (v.doubleRangeFilters.map (dblFilterJson e))), ("creationTimeRangeFilter", msgV e.opts x5), ("participants", msgV e.opts x6), ("extensions", mapV e.opts x7)]) = (listV e.opts (v.tagPresentFilters.map (tagFilterJson e))).toList :=
        occAt (f := "tag_present_filters") (x := listV e.opts (v.tagPresentFilters.map (tagFilterJson e))) (n := "tagPresentFilters") (l1 := [("name", strV e.opts v.name)])
          (l2 := [("stringEqualsFilters", listV e.opts (v.stringEqualsFilters.map (strFilterJson e))), ("doubleRangeFilters", listV e.opts (v.doubleRangeFilters.map (dblFilterJson e))), ("creationTimeRangeFilter", msgV e.opts x5), ("participants", msgV e.opts x6), ("extensions", mapV e.opts x7)]) (n1 := ["name"]) (n2 := ["stringEqualsFilters", "doubleRangeFilters", "creationTimeRangeFilter", "participants", "extensions"])
          (by decide +kernel) rfl rfl (by decide +kernel)
      rw [h0]
      exact (listP_means (tagFilterW he) e.opts _).2 (fun _ _ => trivial)
    · have h0 : occJ "string_equals_filters" (members [("name", strV e.opts v.name), ("tagPresentFilters", listV e.opts (v.tagPresentFilters.map (tagFilterJson e))), ("stringEqualsFilters", listV e.opts (v.stringEqualsFilters.map (strFilterJson e))), ("doubleRangeFilters", listV e.opts (v.doubleRangeFilters.map (dblFilterJson e))), ("creationTimeRangeFilter", msgV e.opts x5), ("participants", msgV e.opts x6), ("extensions", mapV e.opts x7)]) = (listV e.opts (v.stringEqualsFilters.map (strFilterJson e))).toList :=
        occAt (f := "string_equals_filters") (x := listV e.opts (v.stringEqualsFilters.map (strFilterJson e))) (n := "stringEqualsFilters") (l1 := [("name", strV e.opts v.name), ("tagPresentFilters", listV e.opts (v.tagPresentFilters.map (tagFilterJson e)))])
          (l2 := [("doubleRangeFilters", listV e.opts (v.doubleRangeFilters.map (dblFilterJson e))), ("creationTimeRangeFilter", msgV e.opts x5), ("participants", msgV e.opts x6), ("extensions", mapV e.opts x7)]) (n1 := ["name", "tagPresentFilters"]) (n2 := ["doubleRangeFilters", "creationTimeRangeFilter", "participants", "extensions"])
          (by decide +kernel) rfl rfl (by decide +kernel)
      rw [h0]
      exact (listP_means (strFilterW he) e.opts _).2 (fun _ _ => trivial)
    · have h0 : occJ "double_range_filters" (members [("name", strV e.opts v.name), ("tagPresentFilters", listV e.opts (v.tagPresentFilters.map (tagFilterJson e))), ("stringEqualsFilters", listV e.opts (v.stringEqualsFilters.map (strFilterJson e))), ("doubleRangeFilters", listV e.opts (v.doubleRangeFilters.map (dblFilterJson e))), ("creationTimeRangeFilter", msgV e.opts x5), ("participants", msgV e.opts x6), ("extensions", mapV e.opts x7)]) = (listV e.opts (v.doubleRangeFilters.map (dblFilterJson e))).toList :=
        occAt (f := "double_range_filters") (x := listV e.opts (v.doubleRangeFilters.map (dblFilterJson e))) (n := "doubleRangeFilters") (l1 := [("name", strV e.opts v.name), ("tagPresentFilters", listV e.opts (v.tagPresentFilters.map (tagFilterJson e))), ("stringEqualsFilters", listV e.opts (v.stringEqualsFilters.map (strFilterJson e)))])
          (l2 := [("creationTimeRangeFilter", msgV e.opts x5), ("participants", msgV e.opts x6), ("extensions", mapV e.opts x7)]) (n1 := ["name", "tagPresentFilters", "stringEqualsFilters"]) (n2 := ["creationTimeRangeFilter", "participants", "extensions"])
          (by decide +kernel) rfl rfl (by decide +kernel)
      rw [h0]
      exact (listP_means (dblFilterW he) e.opts _).2 gdoubleRangeFilters
    · have h0 : occJ "creation_time_range_filter" (members [("name", strV e.opts v.name), ("tagPresentFilters", listV e.opts (v.tagPresentFilters.map (tagFilterJson e))), ("stringEqualsFilters", listV e.opts (v.stringEqualsFilters.map (strFilterJson e))), ("doubleRangeFilters", listV e.opts (v.doubleRangeFilters.map (dblFilterJson e))), ("creationTimeRangeFilter", msgV e.opts x5), ("participants", msgV e.opts x6), ("extensions", mapV e.opts x7)]) = (msgV e.opts x5).toList :=
        occAt (f := "creation_time_range_filter") (x := msgV e.opts x5) (n := "creationTimeRangeFilter") (l1 := [("name", strV e.opts v.name), ("tagPresentFilters", listV e.opts (v.tagPresentFilters.map (tagFilterJson e))), ("stringEqualsFilters", listV e.opts (v.stringEqualsFilters.map (strFilterJson e))), ("doubleRangeFilters", listV e.opts (v.doubleRangeFilters.map (dblFilterJson e)))])
          (l2 := [("participants", msgV e.opts x6), ("extensions", mapV e.opts x7)]) (n1 := ["name", "tagPresentFilters", "stringEqualsFilters", "doubleRangeFilters"]) (n2 := ["participants", "extensions"])
          (by decide +kernel) rfl rfl (by decide +kernel)
      rw [h0]
      exact (optM_means (ctFilterW he) e.opts hx5).2 gcreationTimeRangeFilter
    · have h0 : occJ "participants" (members [("name", strV e.opts v.name), ("tagPresentFilters", listV e.opts (v.tagPresentFilters.map (tagFilterJson e))), ("stringEqualsFilters", listV e.opts (v.stringEqualsFilters.map (strFilterJson e))), ("doubleRangeFilters", listV e.opts (v.doubleRangeFilters.map (dblFilterJson e))), ("creationTimeRangeFilter", msgV e.opts x5), ("participants", msgV e.opts x6), ("extensions", mapV e.opts x7)]) = (msgV e.opts x6).toList :=
        occAt (f := "participants") (x := msgV e.opts x6) (n := "participants") (l1 := [("name", strV e.opts v.name), ("tagPresentFilters", listV e.opts (v.tagPresentFilters.map (tagFilterJson e))), ("stringEqualsFilters", listV e.opts (v.stringEqualsFilters.map (strFilterJson e))), ("doubleRangeFilters", listV e.opts (v.doubleRangeFilters.map (dblFilterJson e))), ("creationTimeRangeFilter", msgV e.opts x5)])
          (l2 := [("extensions", mapV e.opts x7)]) (n1 := ["name", "tagPresentFilters", "stringEqualsFilters", "doubleRangeFilters", "creationTimeRangeFilter"]) (n2 := ["extensions"])
          (by decide +kernel) rfl rfl (by decide +kernel)
      rw [h0]
      exact (optM_means (rosterW he) e.opts hx6).2 gparticipants
    · have h0 : occJ "extensions" (members [("name", strV e.opts v.name), ("tagPresentFilters", listV e.opts (v.tagPresentFilters.map (tagFilterJson e))), ("stringEqualsFilters", listV e.opts (v.stringEqualsFilters.map (strFilterJson e))), ("doubleRangeFilters", listV e.opts (v.doubleRangeFilters.map (dblFilterJson e))), ("creationTimeRangeFilter", msgV e.opts x5), ("participants", msgV e.opts x6), ("extensions", mapV e.opts x7)]) = (mapV e.opts x7).toList :=
        occAt (f := "extensions") (x := mapV e.opts x7) (n := "extensions") (l1 := [("name", strV e.opts v.name), ("tagPresentFilters", listV e.opts (v.tagPresentFilters.map (tagFilterJson e))), ("stringEqualsFilters", listV e.opts (v.stringEqualsFilters.map (strFilterJson e))), ("doubleRangeFilters", listV e.opts (v.doubleRangeFilters.map (dblFilterJson e))), ("creationTimeRangeFilter", msgV e.opts x5), ("participants", msgV e.opts x6)])
          (l2 := []) (n1 := ["name", "tagPresentFilters", "stringEqualsFilters", "doubleRangeFilters", "creationTimeRangeFilter", "participants"]) (n2 := [])
          (by decide +kernel) rfl rfl (by decide +kernel)
      rw [h0]
      exact (mapM'_means (anyW he) e.opts hx7).2 gextensions

theorem profileW {e : Env} (he : EnvOk e) : Writes (profileJson e) (ProfileOk e) (ProfileGo e) (ProfileJ e) := by
  have shape : ∀ (v : Profile) (j : Json), (profileJson e) v = some j ↔ ∃ x2 x3, mapM' (poolJson e) v.pools = some x2 ∧ mapM' (anyJson e) v.extensions = some x3 ∧ j = .obj (members [("name", strV e.opts v.name), ("pools", mapV e.opts x2), ("extensions", mapV e.opts x3)]) := by
    intro v j
    constructor
    · intro k0
      obtain ⟨x2, hx2, k1⟩ := Option.bind_eq_some_iff.mp k0
      clear k0
      rename' k1 => k0
      obtain ⟨x3, hx3, k1⟩ := Option.bind_eq_some_iff.mp k0
      clear k0
      rename' k1 => k0
      cases k0
      exact ⟨x2, x3, hx2, hx3, by simp only [putStr_eq, putInt_eq, putEnum_eq, putDouble_eq, putMsg_eq, putList_eq, putMap_eq, members, List.append_assoc, List.append_nil]⟩
    · rintro ⟨x2, x3, hx2, hx3, rfl⟩
      refine Option.bind_eq_some_iff.mpr ⟨x2, hx2, ?_⟩
      refine Option.bind_eq_some_iff.mpr ⟨x3, hx3, ?_⟩
      simp only [putStr_eq, putInt_eq, putEnum_eq, putDouble_eq, putMsg_eq, putList_eq, putMap_eq, members, List.append_assoc, List.append_nil]
  refine ⟨fun v => ?_, fun v j h => ?_, fun v j h hg => ?_⟩
  · constructor
    · rintro ⟨j, h, ht⟩
      obtain ⟨x2, x3, hx2, hx3, rfl⟩ := (shape v j).mp h
      rw [textOf (ns := ["name", "pools", "extensions"]) rfl (by decide +kernel)] at ht
      simp only [List.forall_mem_cons] at ht
      obtain ⟨t1, t2, t3, -⟩ := ht
      exact ⟨((strV_ok _ _).2.2).mp t1,
        (mapM'_exact (poolW he) _ _).mp ⟨_, hx2, t2⟩,
        (mapM'_exact (anyW he) _ _).mp ⟨_, hx3, t3⟩⟩
    · rintro ⟨o1, o2, o3⟩
      obtain ⟨x2, hx2, t2⟩ := (mapM'_exact (poolW he) e.opts _).mpr o2
      obtain ⟨x3, hx3, t3⟩ := (mapM'_exact (anyW he) e.opts _).mpr o3
      refine ⟨_, (shape v _).mpr ⟨x2, x3, hx2, hx3, rfl⟩, ?_⟩
      rw [textOf (ns := ["name", "pools", "extensions"]) rfl (by decide +kernel)]
      simp only [List.forall_mem_cons]
      exact ⟨((strV_ok _ _).2.2).mpr o1, t2, t3, by simp⟩
  · obtain ⟨x2, x3, hx2, hx3, rfl⟩ := (shape v j).mp h
    refine ⟨members_nums ?_, by simp⟩
    simp only [List.forall_mem_cons]
    exact ⟨(strV_ok _ _).2.1, (mapM'_means (poolW he) e.opts hx2).1, (mapM'_means (anyW he) e.opts hx3).1, by simp⟩
  · obtain ⟨x2, x3, hx2, hx3, rfl⟩ := (shape v j).mp h
    obtain ⟨gpools, gextensions⟩ := hg
    refine ⟨_, rfl, knownOf e (ns := ["name", "pools", "extensions"]) rfl (by decide +kernel), ⟨⟨1, by decide +kernel⟩, ?_⟩, ⟨⟨2, by decide +kernel⟩, ?_⟩, ⟨⟨3, by decide +kernel⟩, ?_⟩⟩
    · have h0 : occJ "name" (members [("name", strV e.opts v.name), ("pools", mapV e.opts x2), ("extensions", mapV e.opts x3)]) = (strV e.opts v.name).toList :=
        occAt (f := "name") (x := strV e.opts v.name) (n := "name") (l1 := [])
          (l2 := [("pools", mapV e.opts x2), ("extensions", mapV e.opts x3)]) (n1 := []) (n2 := ["pools", "extensions"])
          (by decide +kernel) rfl rfl (by decide +kernel)
      rw [h0]
      exact (strV_ok _ _).1
    · have h0 : occJ "pools" (members [("name", strV e.opts v.name), ("pools", mapV e.opts x2), ("extensions", mapV e.opts x3)]) = (mapV e.opts x2).toList :=
        occAt (f := "pools") (x := mapV e.opts x2) (n := "pools") (l1 := [("name", strV e.opts v.name)])
          (l2 := [("extensions", mapV e.opts x3)]) (n1 := ["name"]) (n2 := ["extensions"])
          (by decide +kernel) rfl rfl (by decide +kernel)
      rw [h0]
      exact (mapM'_means (poolW he) e.opts hx2).2 gpools
    · have h0 : occJ "extensions" (members [("name", strV e.opts v.name), ("pools", mapV e.opts x2), ("extensions", mapV e.opts x3)]) = (mapV e.opts x3).toList :=
        occAt (f := "extensions") (x := mapV e.opts x3) (n := "extensions") (l1 := [("name", strV e.opts v.name), ("pools", mapV e.opts x2)])
          (l2 := []) (n1 := ["name", "pools"]) (n2 := [])
          (by decide +kernel) rfl rfl (by decide +kernel)
      rw [h0]
      exact (mapM'_means (anyW he) e.opts hx3).2 gextensions

theorem matchW {e : Env} (he : EnvOk e) : Writes (matchJson e) (MatchOk e) (MatchGo e) (MatchJ e) := by
  have shape : ∀ (v : Match) (j : Json), (matchJson e) v = some j ↔ ∃ x2 x3, mapM' (rosterJson e) v.rosters = some x2 ∧ mapM' (anyJson e) v.extensions = some x3 ∧ j = .obj (members [("id", strV e.opts v.id), ("rosters", mapV e.opts x2), ("extensions", mapV e.opts x3)]) := by
    intro v j
    constructor
    · intro k0
      obtain ⟨x2, hx2, k1⟩ := Option.bind_eq_some_iff.mp k0
      clear k0
      rename' k1 => k0
      obtain ⟨x3, hx3, k1⟩ := Option.bind_eq_some_iff.mp k0
      clear k0
      rename' k1 => k0
      cases k0
      exact ⟨x2, x3, hx2, hx3, by simp only [putStr_eq, putInt_eq, putEnum_eq, putDouble_eq, putMsg_eq, putList_eq, putMap_eq, members, List.append_assoc, List.append_nil]⟩
    · rintro ⟨x2, x3, hx2, hx3, rfl⟩
      refine Option.bind_eq_some_iff.mpr ⟨x2, hx2, ?_⟩
      refine Option.bind_eq_some_iff.mpr ⟨x3, hx3, ?_⟩
      simp only [putStr_eq, putInt_eq, putEnum_eq, putDouble_eq, putMsg_eq, putList_eq, putMap_eq, members, List.append_assoc, List.append_nil]
  refine ⟨fun v => ?_, fun v j h => ?_, fun v j h hg => ?_⟩
  · constructor
    · rintro ⟨j, h, ht⟩
      obtain ⟨x2, x3, hx2, hx3, rfl⟩ := (shape v j).mp h
      rw [textOf (ns := ["id", "rosters", "extensions"]) rfl (by decide +kernel)] at ht
      simp only [List.forall_mem_cons] at ht
      obtain ⟨t1, t2, t3, -⟩ := ht
      exact ⟨((strV_ok _ _).2.2).mp t1,
        (mapM'_exact (rosterW he) _ _).mp ⟨_, hx2, t2⟩,
        (mapM'_exact (anyW he) _ _).mp ⟨_, hx3, t3⟩⟩
    · rintro ⟨o1, o2, o3⟩
      obtain ⟨x2, hx2, t2⟩ := (mapM'_exact (rosterW he) e.opts _).mpr o2
      obtain ⟨x3, hx3, t3⟩ := (mapM'_exact (anyW he) e.opts _).mpr o3
      refine ⟨_, (shape v _).mpr ⟨x2, x3, hx2, hx3, rfl⟩, ?_⟩
      rw [textOf (ns := ["id", "rosters", "extensions"]) rfl (by decide +kernel)]
      simp only [List.forall_mem_cons]
      exact ⟨((strV_ok _ _).2.2).mpr o1, t2, t3, by simp⟩
  · obtain ⟨x2, x3, hx2, hx3, rfl⟩ := (shape v j).mp h
    refine ⟨members_nums ?_, by simp⟩
    simp only [List.forall_mem_cons]
    exact ⟨(strV_ok _ _).2.1, (mapM'_means (rosterW he) e.opts hx2).1, (mapM'_means (anyW he) e.opts hx3).1, by simp⟩
  · obtain ⟨x2, x3, hx2, hx3, rfl⟩ := (shape v j).mp h
    obtain ⟨grosters, gextensions⟩ := hg
    refine ⟨_, rfl, knownOf e (ns := ["id", "rosters", "extensions"]) rfl (by decide +kernel), ⟨⟨1, by decide +kernel⟩, ?_⟩, ⟨⟨2, by decide +kernel⟩, ?_⟩, ⟨⟨3, by decide +kernel⟩, ?_⟩⟩
    · have h0 : occJ "id" (members [("id", strV e.opts v.id), ("rosters", mapV e.opts x2), ("extensions", mapV e.opts x3)]) = (strV e.opts v.id).toList :=
        occAt (f := "id") (x := strV e.opts v.id) (n := "id") (l1 := [])
          (l2 := [("rosters", mapV e.opts x2), ("extensions", mapV e.opts x3)]) (n1 := []) (n2 := ["rosters", "extensions"])
          (by decide +kernel) rfl rfl (by decide +kernel)
      rw [h0]
      exact (strV_ok _ _).1
    · have h0 : occJ "rosters" (members [("id", strV e.opts v.id), ("rosters", mapV e.opts x2), ("extensions", mapV e.opts x3)]) = (mapV e.opts x2).toList :=
        occAt (f := "rosters") (x := mapV e.opts x2) (n := "rosters") (l1 := [("id", strV e.opts v.id)])
          (l2 := [("extensions", mapV e.opts x3)]) (n1 := ["id"]) (n2 := ["extensions"])
          (by decide +kernel) rfl rfl (by decide +kernel)
      rw [h0]
      exact (mapM'_means (rosterW he) e.opts hx2).2 grosters
    · have h0 : occJ "extensions" (members [("id", strV e.opts v.id), ("rosters", mapV e.opts x2), ("extensions", mapV e.opts x3)]) = (mapV e.opts x3).toList :=
        occAt (f := "extensions") (x := mapV e.opts x3) (n := "extensions") (l1 := [("id", strV e.opts v.id), ("rosters", mapV e.opts x2)])
          (l2 := []) (n1 := ["id", "rosters"]) (n2 := [])
          (by decide +kernel) rfl rfl (by decide +kernel)
      rw [h0]
      exact (mapM'_means (anyW he) e.opts hx3).2 gextensions

theorem specW {e : Env} (he : EnvOk e) : Writes (fun s => some (specJson e s)) SpecOk SpecGo (SpecJ e) := by
  have shape : ∀ (v : Serve.MmfSpec) (j : Json), (fun s => some (specJson e s)) v = some j ↔ j = .obj (members [("name", strV e.opts v.name), ("host", strV e.opts v.host), ("port", intV e.opts v.port), ("type", enumV e.opts types v.type)]) := by
    intro v j
    constructor
    · intro k0
      cases k0
      simp only [specJson, putStr_eq, putInt_eq, putEnum_eq, putDouble_eq, putMsg_eq, putList_eq, putMap_eq, members, List.append_assoc, List.append_nil]
    · rintro rfl
      simp only [specJson, putStr_eq, putInt_eq, putEnum_eq, putDouble_eq, putMsg_eq, putList_eq, putMap_eq, members, List.append_assoc, List.append_nil]
  refine ⟨fun v => ?_, fun v j h => ?_, fun v j h hg => ?_⟩
  · constructor
    · rintro ⟨j, h, ht⟩
      have hj := (shape v j).mp h
      subst hj
      rw [textOf (ns := ["name", "host", "port", "type"]) rfl (by decide +kernel)] at ht
      simp only [List.forall_mem_cons] at ht
      obtain ⟨t1, t2, t3, t4, -⟩ := ht
      exact ⟨((strV_ok _ _).2.2).mp t1,
        ((strV_ok _ _).2.2).mp t2⟩
    · rintro ⟨o1, o2⟩
      refine ⟨_, (shape v _).mpr rfl, ?_⟩
      rw [textOf (ns := ["name", "host", "port", "type"]) rfl (by decide +kernel)]
      simp only [List.forall_mem_cons]
      exact ⟨((strV_ok _ _).2.2).mpr o1, ((strV_ok _ _).2.2).mpr o2, (intV_ok _ _).2.2, (enumV_ok e types_names (by decide) _).2.2, by simp⟩
  · have hj := (shape v j).mp h
    subst hj
    refine ⟨members_nums ?_, by simp⟩
    simp only [List.forall_mem_cons]
    exact ⟨(strV_ok _ _).2.1, (strV_ok _ _).2.1, (intV_ok _ _).2.1, (enumV_ok e types_names (by decide) _).2.1, by simp⟩
  · have hj := (shape v j).mp h
    subst hj
    obtain ⟨gport, gtype⟩ := hg
    refine ⟨_, rfl, knownOf e (ns := ["name", "host", "port", "type"]) rfl (by decide +kernel), ⟨⟨1, by decide +kernel⟩, ?_⟩, ⟨⟨2, by decide +kernel⟩, ?_⟩, ⟨⟨3, by decide +kernel⟩, ?_⟩, ⟨⟨4, by decide +kernel⟩, ?_⟩⟩
    · have h0 : occJ "name" (members [("name", strV e.opts v.name), ("host", strV e.opts v.host), ("port", intV e.opts v.port), ("type", enumV e.opts types v.type)]) = (strV e.opts v.name).toList :=
        occAt (f := "name") (x := strV e.opts v.name) (n := "name") (l1 := [])
          (l2 := [("host", strV e.opts v.host), ("port", intV e.opts v.port), ("type", enumV e.opts types v.type)]) (n1 := []) (n2 := ["host", "port", "type"])
          (by decide +kernel) rfl rfl (by decide +kernel)
      rw [h0]
      exact (strV_ok _ _).1
    · have h0 : occJ "host" (members [("name", strV e.opts v.name), ("host", strV e.opts v.host), ("port", intV e.opts v.port), ("type", enumV e.opts types v.type)]) = (strV e.opts v.host).toList :=
        occAt (f := "host") (x := strV e.opts v.host) (n := "host") (l1 := [("name", strV e.opts v.name)])
          (l2 := [("port", intV e.opts v.port), ("type", enumV e.opts types v.type)]) (n1 := ["name"]) (n2 := ["port", "type"])
          (by decide +kernel) rfl rfl (by decide +kernel)
      rw [h0]
      exact (strV_ok _ _).1
    · have h0 : occJ "port" (members [("name", strV e.opts v.name), ("host", strV e.opts v.host), ("port", intV e.opts v.port), ("type", enumV e.opts types v.type)]) = (intV e.opts v.port).toList :=
        occAt (f := "port") (x := intV e.opts v.port) (n := "port") (l1 := [("name", strV e.opts v.name), ("host", strV e.opts v.host)])
          (l2 := [("type", enumV e.opts types v.type)]) (n1 := ["name", "host"]) (n2 := ["type"])
          (by decide +kernel) rfl rfl (by decide +kernel)
      rw [h0]
      exact (intV_ok _ _).1 gport
    · have h0 : occJ "type" (members [("name", strV e.opts v.name), ("host", strV e.opts v.host), ("port", intV e.opts v.port), ("type", enumV e.opts types v.type)]) = (enumV e.opts types v.type).toList :=
        occAt (f := "type") (x := enumV e.opts types v.type) (n := "type") (l1 := [("name", strV e.opts v.name), ("host", strV e.opts v.host), ("port", intV e.opts v.port)])
          (l2 := []) (n1 := ["name", "host", "port"]) (n2 := [])
          (by decide +kernel) rfl rfl (by decide +kernel)
      rw [h0]
      exact (enumV_ok e types_names (by decide) _).1 gtype

theorem createTicketW {e : Env} (he : EnvOk e) : Writes (createTicketJson e) (OptAll (TicketOk e)) (OptAll (TicketGo e)) (CreateTicketRequestJ e) := by
  have shape : ∀ (v : Option Ticket) (j : Json), (createTicketJson e) v = some j ↔ ∃ x1, optM (ticketJson e) v = some x1 ∧ j = .obj (members [("ticket", msgV e.opts x1)]) := by
    intro v j
    constructor
    · intro k0
      obtain ⟨x1, hx1, k1⟩ := Option.map_eq_some_iff.mp k0
      subst k1
      exact ⟨x1, hx1, by simp only [putStr_eq, putInt_eq, putEnum_eq, putDouble_eq, putMsg_eq, putList_eq, putMap_eq, members, List.append_assoc, List.append_nil]⟩
    · rintro ⟨x1, hx1, rfl⟩
      refine Option.map_eq_some_iff.mpr ⟨x1, hx1, ?_⟩
      simp only [putStr_eq, putInt_eq, putEnum_eq, putDouble_eq, putMsg_eq, putList_eq, putMap_eq, members, List.append_assoc, List.append_nil]
  refine ⟨fun v => ?_, fun v j h => ?_, fun v j h hg => ?_⟩
  · constructor
    · rintro ⟨j, h, ht⟩
      obtain ⟨x1, hx1, rfl⟩ := (shape v j).mp h
      rw [textOf (ns := ["ticket"]) rfl (by decide +kernel)] at ht
      simp only [List.forall_mem_cons] at ht
      obtain ⟨t1, -⟩ := ht
      exact (optM_exact (ticketW he) _ _).mp ⟨_, hx1, t1⟩
    · intro o1
      obtain ⟨x1, hx1, t1⟩ := (optM_exact (ticketW he) e.opts _).mpr o1
      refine ⟨_, (shape v _).mpr ⟨x1, hx1, rfl⟩, ?_⟩
      rw [textOf (ns := ["ticket"]) rfl (by decide +kernel)]
      simp only [List.forall_mem_cons]
      exact ⟨t1, by simp⟩
  · obtain ⟨x1, hx1, rfl⟩ := (shape v j).mp h
    refine ⟨members_nums ?_, by simp⟩
    simp only [List.forall_mem_cons]
    exact ⟨(optM_means (ticketW he) e.opts hx1).1, by simp⟩
  · obtain ⟨x1, hx1, rfl⟩ := (shape v j).mp h
    have gticket := hg
    refine ⟨_, rfl, knownOf e (ns := ["ticket"]) rfl (by decide +kernel), ⟨⟨1, by decide +kernel⟩, ?_⟩⟩
    · have h0 : occJ "ticket" (members [("ticket", msgV e.opts x1)]) = (msgV e.opts x1).toList :=
        occAt (f := "ticket") (x := msgV e.opts x1) (n := "ticket") (l1 := [])
          (l2 := []) (n1 := []) (n2 := [])
          (by decide +kernel) rfl rfl (by decide +kernel)
      rw [h0]
      exact (optM_means (ticketW he) e.opts hx1).2 gticket

theorem createdW {e : Env} (he : EnvOk e) : Writes (fun s => createdJson e s) IsText (fun _ => True) (CreateTicketResponseJ e) := by
  have shape : ∀ (v : Str) (j : Json), (fun s => createdJson e s) v = some j ↔ j = .obj (members [("ticketId", strV e.opts v)]) := by
    intro v j
    constructor
    · intro k0
      cases k0
      simp only [createdJson, putStr_eq, putInt_eq, putEnum_eq, putDouble_eq, putMsg_eq, putList_eq, putMap_eq, members, List.append_assoc, List.append_nil]
    · rintro rfl
      simp only [createdJson, putStr_eq, putInt_eq, putEnum_eq, putDouble_eq, putMsg_eq, putList_eq, putMap_eq, members, List.append_assoc, List.append_nil]
  refine ⟨fun v => ?_, fun v j h => ?_, fun v j h hg => ?_⟩
  · constructor
    · rintro ⟨j, h, ht⟩
      have hj := (shape v j).mp h
      subst hj
      rw [textOf (ns := ["ticketId"]) rfl (by decide +kernel)] at ht
      simp only [List.forall_mem_cons] at ht
      obtain ⟨t1, -⟩ := ht
      exact ((strV_ok _ _).2.2).mp t1
    · intro o1
      refine ⟨_, (shape v _).mpr rfl, ?_⟩
      rw [textOf (ns := ["ticketId"]) rfl (by decide +kernel)]
      simp only [List.forall_mem_cons]
      exact ⟨((strV_ok _ _).2.2).mpr o1, by simp⟩
  · have hj := (shape v j).mp h
    subst hj
    refine ⟨members_nums ?_, by simp⟩
    simp only [List.forall_mem_cons]
    exact ⟨(strV_ok _ _).2.1, by simp⟩
  · have hj := (shape v j).mp h
    subst hj
    refine ⟨_, rfl, knownOf e (ns := ["ticketId"]) rfl (by decide +kernel), ⟨⟨1, by decide +kernel⟩, ?_⟩⟩
    · have h0 : occJ "ticket_id" (members [("ticketId", strV e.opts v)]) = (strV e.opts v).toList :=
        occAt (f := "ticket_id") (x := strV e.opts v) (n := "ticketId") (l1 := [])
          (l2 := []) (n1 := []) (n2 := [])
          (by decide +kernel) rfl rfl (by decide +kernel)
      rw [h0]
      exact (strV_ok _ _).1

theorem activateIdsW {e : Env} (he : EnvOk e) : Writes (fun s => idsJson e s) (ListAll IsText) (fun _ => True) (IdsRequestJ e "ActivateTicketsRequest") := by
  have shape : ∀ (v : List Str) (j : Json), (fun s => idsJson e s) v = some j ↔ j = .obj (members [("ticketIds", listV e.opts (v.map Json.str))]) := by
    intro v j
    constructor
    · intro k0
      cases k0
      simp only [idsJson, putStr_eq, putInt_eq, putEnum_eq, putDouble_eq, putMsg_eq, putList_eq, putMap_eq, members, List.append_assoc, List.append_nil]
    · rintro rfl
      simp only [idsJson, putStr_eq, putInt_eq, putEnum_eq, putDouble_eq, putMsg_eq, putList_eq, putMap_eq, members, List.append_assoc, List.append_nil]
  refine ⟨fun v => ?_, fun v j h => ?_, fun v j h hg => ?_⟩
  · constructor
    · rintro ⟨j, h, ht⟩
      have hj := (shape v j).mp h
      subst hj
      rw [textOf (ns := ["ticketIds"]) rfl (by decide +kernel)] at ht
      simp only [List.forall_mem_cons] at ht
      obtain ⟨t1, -⟩ := ht
      exact (listP_exact strW _ _).mp t1
    · intro o1
      refine ⟨_, (shape v _).mpr rfl, ?_⟩
      rw [textOf (ns := ["ticketIds"]) rfl (by decide +kernel)]
      simp only [List.forall_mem_cons]
      exact ⟨(listP_exact strW _ _).mpr o1, by simp⟩
  · have hj := (shape v j).mp h
    subst hj
    refine ⟨members_nums ?_, by simp⟩
    simp only [List.forall_mem_cons]
    exact ⟨(listP_means strW e.opts _).1, by simp⟩
  · have hj := (shape v j).mp h
    subst hj
    refine ⟨_, rfl, knownOf e (ns := ["ticketIds"]) rfl (by decide +kernel), ⟨⟨1, by decide +kernel⟩, ?_⟩⟩
    · have h0 : occJ "ticket_ids" (members [("ticketIds", listV e.opts (v.map Json.str))]) = (listV e.opts (v.map Json.str)).toList :=
        occAt (f := "ticket_ids") (x := listV e.opts (v.map Json.str)) (n := "ticketIds") (l1 := [])
          (l2 := []) (n1 := []) (n2 := [])
          (by decide +kernel) rfl rfl (by decide +kernel)
      rw [h0]
      exact (listP_means strW e.opts _).2 (fun _ _ => trivial)

theorem deactivateIdsW {e : Env} (he : EnvOk e) : Writes (fun s => idsJson e s) (ListAll IsText) (fun _ => True) (IdsRequestJ e "DeactivateTicketsRequest") := by
  have shape : ∀ (v : List Str) (j : Json), (fun s => idsJson e s) v = some j ↔ j = .obj (members [("ticketIds", listV e.opts (v.map Json.str))]) := by
    intro v j
    constructor
    · intro k0
      cases k0
      simp only [idsJson, putStr_eq, putInt_eq, putEnum_eq, putDouble_eq, putMsg_eq, putList_eq, putMap_eq, members, List.append_assoc, List.append_nil]
    · rintro rfl
      simp only [idsJson, putStr_eq, putInt_eq, putEnum_eq, putDouble_eq, putMsg_eq, putList_eq, putMap_eq, members, List.append_assoc, List.append_nil]
  refine ⟨fun v => ?_, fun v j h => ?_, fun v j h hg => ?_⟩
  · constructor
    · rintro ⟨j, h, ht⟩
      have hj := (shape v j).mp h
      subst hj
      rw [textOf (ns := ["ticketIds"]) rfl (by decide +kernel)] at ht
      simp only [List.forall_mem_cons] at ht
      obtain ⟨t1, -⟩ := ht
      exact (listP_exact strW _ _).mp t1
    · intro o1
      refine ⟨_, (shape v _).mpr rfl, ?_⟩
      rw [textOf (ns := ["ticketIds"]) rfl (by decide +kernel)]
      simp only [List.forall_mem_cons]
      exact ⟨(listP_exact strW _ _).mpr o1, by simp⟩
  · have hj := (shape v j).mp h
    subst hj
    refine ⟨members_nums ?_, by simp⟩
    simp only [List.forall_mem_cons]
    exact ⟨(listP_means strW e.opts _).1, by simp⟩
  · have hj := (shape v j).mp h
    subst hj
    refine ⟨_, rfl, knownOf e (ns := ["ticketIds"]) rfl (by decide +kernel), ⟨⟨1, by decide +kernel⟩, ?_⟩⟩
    · have h0 : occJ "ticket_ids" (members [("ticketIds", listV e.opts (v.map Json.str))]) = (listV e.opts (v.map Json.str)).toList :=
        occAt (f := "ticket_ids") (x := listV e.opts (v.map Json.str)) (n := "ticketIds") (l1 := [])
          (l2 := []) (n1 := []) (n2 := [])
          (by decide +kernel) rfl rfl (by decide +kernel)
      rw [h0]
      exact (listP_means strW e.opts _).2 (fun _ _ => trivial)

theorem watchIdsW {e : Env} (he : EnvOk e) : Writes (fun s => idsJson e s) (ListAll IsText) (fun _ => True) (IdsRequestJ e "WatchAssignmentsRequest") := by
  have shape : ∀ (v : List Str) (j : Json), (fun s => idsJson e s) v = some j ↔ j = .obj (members [("ticketIds", listV e.opts (v.map Json.str))]) := by
    intro v j
    constructor
    · intro k0
      cases k0
      simp only [idsJson, putStr_eq, putInt_eq, putEnum_eq, putDouble_eq, putMsg_eq, putList_eq, putMap_eq, members, List.append_assoc, List.append_nil]
    · rintro rfl
      simp only [idsJson, putStr_eq, putInt_eq, putEnum_eq, putDouble_eq, putMsg_eq, putList_eq, putMap_eq, members, List.append_assoc, List.append_nil]
  refine ⟨fun v => ?_, fun v j h => ?_, fun v j h hg => ?_⟩
  · constructor
    · rintro ⟨j, h, ht⟩
      have hj := (shape v j).mp h
      subst hj
      rw [textOf (ns := ["ticketIds"]) rfl (by decide +kernel)] at ht
      simp only [List.forall_mem_cons] at ht
      obtain ⟨t1, -⟩ := ht
      exact (listP_exact strW _ _).mp t1
    · intro o1
      refine ⟨_, (shape v _).mpr rfl, ?_⟩
      rw [textOf (ns := ["ticketIds"]) rfl (by decide +kernel)]
      simp only [List.forall_mem_cons]
      exact ⟨(listP_exact strW _ _).mpr o1, by simp⟩
  · have hj := (shape v j).mp h
    subst hj
    refine ⟨members_nums ?_, by simp⟩
    simp only [List.forall_mem_cons]
    exact ⟨(listP_means strW e.opts _).1, by simp⟩
  · have hj := (shape v j).mp h
    subst hj
    refine ⟨_, rfl, knownOf e (ns := ["ticketIds"]) rfl (by decide +kernel), ⟨⟨1, by decide +kernel⟩, ?_⟩⟩
    · have h0 : occJ "ticket_ids" (members [("ticketIds", listV e.opts (v.map Json.str))]) = (listV e.opts (v.map Json.str)).toList :=
        occAt (f := "ticket_ids") (x := listV e.opts (v.map Json.str)) (n := "ticketIds") (l1 := [])
          (l2 := []) (n1 := []) (n2 := [])
          (by decide +kernel) rfl rfl (by decide +kernel)
      rw [h0]
      exact (listP_means strW e.opts _).2 (fun _ _ => trivial)

theorem mmfRequestW {e : Env} (he : EnvOk e) : Writes (mmfRequestJson e) (fun q => OptAll (ProfileOk e) q.1 ∧ ListAll SpecOk q.2) (fun q => OptAll (ProfileGo e) q.1 ∧ ListAll SpecGo q.2) (MmfRequestJ e) := by
  have shape : ∀ (v : Option Profile × List Serve.MmfSpec) (j : Json), (mmfRequestJson e) v = some j ↔ ∃ x1, optM (profileJson e) v.1 = some x1 ∧ j = .obj (members [("profile", msgV e.opts x1), ("mmfs", listV e.opts (v.2.map (specJson e)))]) := by
    intro v j
    constructor
    · intro k0
      obtain ⟨x1, hx1, k1⟩ := Option.map_eq_some_iff.mp k0
      subst k1
      exact ⟨x1, hx1, by simp only [putStr_eq, putInt_eq, putEnum_eq, putDouble_eq, putMsg_eq, putList_eq, putMap_eq, members, List.append_assoc, List.append_nil]⟩
    · rintro ⟨x1, hx1, rfl⟩
      refine Option.map_eq_some_iff.mpr ⟨x1, hx1, ?_⟩
      simp only [putStr_eq, putInt_eq, putEnum_eq, putDouble_eq, putMsg_eq, putList_eq, putMap_eq, members, List.append_assoc, List.append_nil]
  refine ⟨fun v => ?_, fun v j h => ?_, fun v j h hg => ?_⟩
  · constructor
    · rintro ⟨j, h, ht⟩
      obtain ⟨x1, hx1, rfl⟩ := (shape v j).mp h
      rw [textOf (ns := ["profile", "mmfs"]) rfl (by decide +kernel)] at ht
      simp only [List.forall_mem_cons] at ht
      obtain ⟨t1, t2, -⟩ := ht
      exact ⟨(optM_exact (profileW he) _ _).mp ⟨_, hx1, t1⟩,
        (listP_exact (specW he) _ _).mp t2⟩
    · rintro ⟨o1, o2⟩
      obtain ⟨x1, hx1, t1⟩ := (optM_exact (profileW he) e.opts _).mpr o1
      refine ⟨_, (shape v _).mpr ⟨x1, hx1, rfl⟩, ?_⟩
      rw [textOf (ns := ["profile", "mmfs"]) rfl (by decide +kernel)]
      simp only [List.forall_mem_cons]
      exact ⟨t1, (listP_exact (specW he) _ _).mpr o2, by simp⟩
  · obtain ⟨x1, hx1, rfl⟩ := (shape v j).mp h
    refine ⟨members_nums ?_, by simp⟩
    simp only [List.forall_mem_cons]
    exact ⟨(optM_means (profileW he) e.opts hx1).1, (listP_means (specW he) e.opts _).1, by simp⟩
  · obtain ⟨x1, hx1, rfl⟩ := (shape v j).mp h
    obtain ⟨gprofile, gmmfs⟩ := hg
    refine ⟨_, rfl, knownOf e (ns := ["profile", "mmfs"]) rfl (by decide +kernel), ⟨⟨1, by decide +kernel⟩, ?_⟩, ⟨⟨2, by decide +kernel⟩, ?_⟩⟩
    · have h0 : occJ "profile" (members [("profile", msgV e.opts x1), ("mmfs", listV e.opts (v.2.map (specJson e)))]) = (msgV e.opts x1).toList :=
        occAt (f := "profile") (x := msgV e.opts x1) (n := "profile") (l1 := [])
          (l2 := [("mmfs", listV e.opts (v.2.map (specJson e)))]) (n1 := []) (n2 := ["mmfs"])
          (by decide +kernel) rfl rfl (by decide +kernel)
      rw [h0]
      exact (optM_means (profileW he) e.opts hx1).2 gprofile
    · have h0 : occJ "mmfs" (members [("profile", msgV e.opts x1), ("mmfs", listV e.opts (v.2.map (specJson e)))]) = (listV e.opts (v.2.map (specJson e))).toList :=
        occAt (f := "mmfs") (x := listV e.opts (v.2.map (specJson e))) (n := "mmfs") (l1 := [("profile", msgV e.opts x1)])
          (l2 := []) (n1 := ["profile"]) (n2 := [])
          (by decide +kernel) rfl rfl (by decide +kernel)
      rw [h0]
      exact (listP_means (specW he) e.opts _).2 gmmfs

theorem mmfResponseW {e : Env} (he : EnvOk e) : Writes (mmfResponseJson e) (OptAll (MatchOk e)) (OptAll (MatchGo e)) (MmfResponseJ e) := by
  have shape : ∀ (v : Option Match) (j : Json), (mmfResponseJson e) v = some j ↔ ∃ x1, optM (matchJson e) v = some x1 ∧ j = .obj (members [("match", msgV e.opts x1)]) := by
    intro v j
    constructor
    · intro k0
      obtain ⟨x1, hx1, k1⟩ := Option.map_eq_some_iff.mp k0
      subst k1
      exact ⟨x1, hx1, by simp only [putStr_eq, putInt_eq, putEnum_eq, putDouble_eq, putMsg_eq, putList_eq, putMap_eq, members, List.append_assoc, List.append_nil]⟩
    · rintro ⟨x1, hx1, rfl⟩
      refine Option.map_eq_some_iff.mpr ⟨x1, hx1, ?_⟩
      simp only [putStr_eq, putInt_eq, putEnum_eq, putDouble_eq, putMsg_eq, putList_eq, putMap_eq, members, List.append_assoc, List.append_nil]
  refine ⟨fun v => ?_, fun v j h => ?_, fun v j h hg => ?_⟩
  · constructor
    · rintro ⟨j, h, ht⟩
      obtain ⟨x1, hx1, rfl⟩ := (shape v j).mp h
      rw [textOf (ns := ["match"]) rfl (by decide +kernel)] at ht
      simp only [List.forall_mem_cons] at ht
      obtain ⟨t1, -⟩ := ht
      exact (optM_exact (matchW he) _ _).mp ⟨_, hx1, t1⟩
    · intro o1
      obtain ⟨x1, hx1, t1⟩ := (optM_exact (matchW he) e.opts _).mpr o1
      refine ⟨_, (shape v _).mpr ⟨x1, hx1, rfl⟩, ?_⟩
      rw [textOf (ns := ["match"]) rfl (by decide +kernel)]
      simp only [List.forall_mem_cons]
      exact ⟨t1, by simp⟩
  · obtain ⟨x1, hx1, rfl⟩ := (shape v j).mp h
    refine ⟨members_nums ?_, by simp⟩
    simp only [List.forall_mem_cons]
    exact ⟨(optM_means (matchW he) e.opts hx1).1, by simp⟩
  · obtain ⟨x1, hx1, rfl⟩ := (shape v j).mp h
    have gmatch := hg
    refine ⟨_, rfl, knownOf e (ns := ["match"]) rfl (by decide +kernel), ⟨⟨1, by decide +kernel⟩, ?_⟩⟩
    · have h0 : occJ "match" (members [("match", msgV e.opts x1)]) = (msgV e.opts x1).toList :=
        occAt (f := "match") (x := msgV e.opts x1) (n := "match") (l1 := [])
          (l2 := []) (n1 := []) (n2 := [])
          (by decide +kernel) rfl rfl (by decide +kernel)
      rw [h0]
      exact (optM_means (matchW he) e.opts hx1).2 gmatch

theorem createAssignmentsW {e : Env} (he : EnvOk e) : Writes (createAssignmentsJson e) (OptAll (RosterOk e)) (OptAll (RosterGo e)) (CreateAssignmentsRequestJ e) := by
  have shape : ∀ (v : Option Roster) (j : Json), (createAssignmentsJson e) v = some j ↔ ∃ x1, optM (rosterJson e) v = some x1 ∧ j = .obj (members [("assignmentRoster", msgV e.opts x1)]) := by
    intro v j
    constructor
    · intro k0
      obtain ⟨x1, hx1, k1⟩ := Option.map_eq_some_iff.mp k0
      subst k1
      exact ⟨x1, hx1, by simp only [putStr_eq, putInt_eq, putEnum_eq, putDouble_eq, putMsg_eq, putList_eq, putMap_eq, members, List.append_assoc, List.append_nil]⟩
    · rintro ⟨x1, hx1, rfl⟩
      refine Option.map_eq_some_iff.mpr ⟨x1, hx1, ?_⟩
      simp only [putStr_eq, putInt_eq, putEnum_eq, putDouble_eq, putMsg_eq, putList_eq, putMap_eq, members, List.append_assoc, List.append_nil]
  refine ⟨fun v => ?_, fun v j h => ?_, fun v j h hg => ?_⟩
  · constructor
    · rintro ⟨j, h, ht⟩
      obtain ⟨x1, hx1, rfl⟩ := (shape v j).mp h
      rw [textOf (ns := ["assignmentRoster"]) rfl (by decide +kernel)] at ht
      simp only [List.forall_mem_cons] at ht
      obtain ⟨t1, -⟩ := ht
      exact (optM_exact (rosterW he) _ _).mp ⟨_, hx1, t1⟩
    · intro o1
      obtain ⟨x1, hx1, t1⟩ := (optM_exact (rosterW he) e.opts _).mpr o1
      refine ⟨_, (shape v _).mpr ⟨x1, hx1, rfl⟩, ?_⟩
      rw [textOf (ns := ["assignmentRoster"]) rfl (by decide +kernel)]
      simp only [List.forall_mem_cons]
      exact ⟨t1, by simp⟩
  · obtain ⟨x1, hx1, rfl⟩ := (shape v j).mp h
    refine ⟨members_nums ?_, by simp⟩
    simp only [List.forall_mem_cons]
    exact ⟨(optM_means (rosterW he) e.opts hx1).1, by simp⟩
  · obtain ⟨x1, hx1, rfl⟩ := (shape v j).mp h
    have gassignmentRoster := hg
    refine ⟨_, rfl, knownOf e (ns := ["assignmentRoster"]) rfl (by decide +kernel), ⟨⟨1, by decide +kernel⟩, ?_⟩⟩
    · have h0 : occJ "assignment_roster" (members [("assignmentRoster", msgV e.opts x1)]) = (msgV e.opts x1).toList :=
        occAt (f := "assignment_roster") (x := msgV e.opts x1) (n := "assignmentRoster") (l1 := [])
          (l2 := []) (n1 := []) (n2 := [])
          (by decide +kernel) rfl rfl (by decide +kernel)
      rw [h0]
      exact (optM_means (rosterW he) e.opts hx1).2 gassignmentRoster

theorem watchResponseW {e : Env} (he : EnvOk e) : Writes (watchResponseJson e) (fun a => OptAll (AssignmentOk e) a.1 ∧ IsText a.2) (fun a => OptAll (AssignmentGo e) a.1) (WatchResponseJ e) := by
  have shape : ∀ (v : Option Assignment × Str) (j : Json), (watchResponseJson e) v = some j ↔ ∃ x1, optM (assignmentJson e) v.1 = some x1 ∧ j = .obj (members [("assignment", msgV e.opts x1), ("id", strV e.opts v.2)]) := by
    intro v j
    constructor
    · intro k0
      obtain ⟨x1, hx1, k1⟩ := Option.map_eq_some_iff.mp k0
      subst k1
      exact ⟨x1, hx1, by simp only [putStr_eq, putInt_eq, putEnum_eq, putDouble_eq, putMsg_eq, putList_eq, putMap_eq, members, List.append_assoc, List.append_nil]⟩
    · rintro ⟨x1, hx1, rfl⟩
      refine Option.map_eq_some_iff.mpr ⟨x1, hx1, ?_⟩
      simp only [putStr_eq, putInt_eq, putEnum_eq, putDouble_eq, putMsg_eq, putList_eq, putMap_eq, members, List.append_assoc, List.append_nil]
  refine ⟨fun v => ?_, fun v j h => ?_, fun v j h hg => ?_⟩
  · constructor
    · rintro ⟨j, h, ht⟩
      obtain ⟨x1, hx1, rfl⟩ := (shape v j).mp h
      rw [textOf (ns := ["assignment", "id"]) rfl (by decide +kernel)] at ht
      simp only [List.forall_mem_cons] at ht
      obtain ⟨t1, t2, -⟩ := ht
      exact ⟨(optM_exact (assignmentW he) _ _).mp ⟨_, hx1, t1⟩,
        ((strV_ok _ _).2.2).mp t2⟩
    · rintro ⟨o1, o2⟩
      obtain ⟨x1, hx1, t1⟩ := (optM_exact (assignmentW he) e.opts _).mpr o1
      refine ⟨_, (shape v _).mpr ⟨x1, hx1, rfl⟩, ?_⟩
      rw [textOf (ns := ["assignment", "id"]) rfl (by decide +kernel)]
      simp only [List.forall_mem_cons]
      exact ⟨t1, ((strV_ok _ _).2.2).mpr o2, by simp⟩
  · obtain ⟨x1, hx1, rfl⟩ := (shape v j).mp h
    refine ⟨members_nums ?_, by simp⟩
    simp only [List.forall_mem_cons]
    exact ⟨(optM_means (assignmentW he) e.opts hx1).1, (strV_ok _ _).2.1, by simp⟩
  · obtain ⟨x1, hx1, rfl⟩ := (shape v j).mp h
    have gassignment := hg
    refine ⟨_, rfl, knownOf e (ns := ["assignment", "id"]) rfl (by decide +kernel), ⟨⟨1, by decide +kernel⟩, ?_⟩, ⟨⟨2, by decide +kernel⟩, ?_⟩⟩
    · have h0 : occJ "assignment" (members [("assignment", msgV e.opts x1), ("id", strV e.opts v.2)]) = (msgV e.opts x1).toList :=
        occAt (f := "assignment") (x := msgV e.opts x1) (n := "assignment") (l1 := [])
          (l2 := [("id", strV e.opts v.2)]) (n1 := []) (n2 := ["id"])
          (by decide +kernel) rfl rfl (by decide +kernel)
      rw [h0]
      exact (optM_means (assignmentW he) e.opts hx1).2 gassignment
    · have h0 : occJ "id" (members [("assignment", msgV e.opts x1), ("id", strV e.opts v.2)]) = (strV e.opts v.2).toList :=
        occAt (f := "id") (x := strV e.opts v.2) (n := "id") (l1 := [("assignment", msgV e.opts x1)])
          (l2 := []) (n1 := ["assignment"]) (n2 := [])
          (by decide +kernel) rfl rfl (by decide +kernel)
      rw [h0]
      exact (strV_ok _ _).1

end OM.PJ
