import Verif.Spec.JsonStrings
import Verif.Lemmas.JsonBlank
import Verif.Lemmas.ProtoJsonWrite
/-! # Lemmas: which strings of a match are written -/
namespace OM.PJ
open OM.Spec

/-- Printable ASCII without the space. -/
def Plain (s : Str) : Prop := ∀ c ∈ s, 0x20 < c.toNat ∧ c.toNat < 0x80

instance (s : Str) : Decidable (Plain s) := by unfold Plain; infer_instance

theorem plain_append {a b : Str} (ha : Plain a) (hb : Plain b) : Plain (a ++ b) := by
  intro c hc
  rcases List.mem_append.1 hc with h | h
  · exact ha c h
  · exact hb c h

theorem plain_cons {c : Char} {b : Str} (h1 : 0x20 < c.toNat) (h2 : c.toNat < 0x80) (hb : Plain b) : Plain (c :: b) :=
  plain_append (a := [c]) (by intro d hd; rw [List.mem_singleton.1 hd]; exact ⟨h1, h2⟩) hb

theorem plain_not_blank {s : Str} (h : Plain s) : ¬ Blank s := by
  rintro ⟨text, he, c, hc, hw, -⟩
  obtain ⟨text', he', -, h'⟩ := Json.line_ascii h
  have : text' = text := Json.flatMap_charBytes_inj (he'.symm.trans he)
  subst this
  exact h'.1 ⟨c, hc, hw⟩

theorem hasBlank_nil : HasBlank [] ↔ False := by simp [HasBlank]
theorem hasBlank_cons {s : Str} {l : List Str} : HasBlank (s :: l) ↔ Blank s ∨ HasBlank l := by simp [HasBlank]
theorem hasBlank_append {a b : List Str} : HasBlank (a ++ b) ↔ HasBlank a ∨ HasBlank b := by
  simp only [HasBlank, List.mem_append, or_and_right, exists_or]
theorem hasBlank_flatMap {α : Type} {f : α → List Str} {l : List α} : HasBlank (l.flatMap f) ↔ ∃ x ∈ l, HasBlank (f x) := by
  simp only [HasBlank, List.mem_flatMap]
  constructor
  · rintro ⟨s, ⟨x, hx, hs⟩, hb⟩; exact ⟨x, hx, s, hs, hb⟩
  · rintro ⟨x, hx, s, hs, hb⟩; exact ⟨s, ⟨x, hx, hs⟩, hb⟩
theorem hasBlank_one {s : Str} : HasBlank [s] ↔ Blank s := by simp [HasBlank]

theorem memberStrings_append (a b : List (Str × Json)) : memberStrings (a ++ b) = memberStrings a ++ memberStrings b := by
  induction a with
  | nil => simp [memberStrings]
  | cons x a ih => obtain ⟨k, j⟩ := x; simp [memberStrings, ih]

theorem members_blank {l : List (Str × Json)} : HasBlank (memberStrings l) ↔ ∃ x ∈ l, Blank x.1 ∨ HasBlank (strings x.2) := by
  induction l with
  | nil => simp [memberStrings, HasBlank]
  | cons x l ih => obtain ⟨k, j⟩ := x; simp [memberStrings, hasBlank_cons, hasBlank_append, ih, or_assoc]

theorem elems_blank {l : List Json} : HasBlank (elemStrings l) ↔ ∃ j ∈ l, HasBlank (strings j) := by
  induction l with
  | nil => simp [elemStrings, HasBlank]
  | cons j l ih => simp [elemStrings, hasBlank_append, ih]

theorem not_blank_nil : ¬ Blank [] := plain_not_blank (by decide)

theorem putStr_blank {o : Opts} {name : String} {s : Str} (hn : Plain name.toList) :
    HasBlank (memberStrings (putStr o name s)) ↔ Blank s := by
  unfold putStr
  split
  · rename_i h; rw [h.1]; simp [memberStrings, hasBlank_nil, not_blank_nil]
  · simp [memberStrings, strings, hasBlank_cons, hasBlank_nil, plain_not_blank hn]

theorem putMsg_blank {o : Opts} {name : String} {m : Option Json} (hn : Plain name.toList) :
    HasBlank (memberStrings (putMsg o name m)) ↔ ∃ j, m = some j ∧ HasBlank (strings j) := by
  unfold putMsg
  cases m with
  | none =>
    show HasBlank (memberStrings (if o.emit = true then [(name.toList, Json.null)] else [])) ↔ _
    split <;> simp [memberStrings, strings, hasBlank_cons, hasBlank_nil, plain_not_blank hn]
  | some j => simp [memberStrings, hasBlank_cons, plain_not_blank hn]

theorem putList_blank {o : Opts} {name : String} {l : List Json} (hn : Plain name.toList) :
    HasBlank (memberStrings (putList o name l)) ↔ ∃ j ∈ l, HasBlank (strings j) := by
  unfold putList
  split
  · rename_i h; rw [h.1]; simp [memberStrings, hasBlank_nil]
  · simp [memberStrings, strings, hasBlank_cons, plain_not_blank hn, elems_blank]

theorem putMap_blank {o : Opts} {name : String} {l : List (Str × Json)} (hn : Plain name.toList) :
    HasBlank (memberStrings (putMap o name l)) ↔ ∃ x ∈ l, Blank x.1 ∨ HasBlank (strings x.2) := by
  unfold putMap
  split
  · rename_i h; rw [h.1]; simp [memberStrings, hasBlank_nil]
  · simp [memberStrings, strings, hasBlank_cons, plain_not_blank hn, members_blank]

/-- An encoder whose strings have a blank exactly if those of the value have. -/
def Faithful {α : Type} (enc : α → Option Json) (f : α → List Str) : Prop :=
  ∀ v j, enc v = some j → (HasBlank (strings j) ↔ HasBlank (f v))

theorem optM_blank {α : Type} {enc : α → Option Json} {f : α → List Str} (h : Faithful enc f) {v : Option α} {o : Option Json}
    (ho : optM enc v = some o) : (∃ j, o = some j ∧ HasBlank (strings j)) ↔ HasBlank (optStrings f v) := by
  cases v with
  | none => simp only [optM, Option.some.injEq] at ho; subst ho; simp [optStrings, hasBlank_nil]
  | some v =>
    simp only [optM, Option.map_eq_some_iff] at ho
    obtain ⟨j, hj, rfl⟩ := ho
    simp [optStrings, h v j hj]

theorem mapM_blank {α : Type} {enc : α → Option Json} {f : α → List Str} (h : Faithful enc f) : ∀ {l : List α} {js : List Json},
    l.mapM enc = some js → ((∃ j ∈ js, HasBlank (strings j)) ↔ HasBlank (l.flatMap f)) := by
  intro l
  induction l with
  | nil => intro js hj; simp at hj; subst hj; simp [hasBlank_nil]
  | cons v l ih =>
    intro js hj
    simp only [List.mapM_cons, Option.bind_eq_bind, Option.bind_eq_some_iff, Option.pure_def, Option.some.injEq] at hj
    obtain ⟨j, h1, js', h2, rfl⟩ := hj
    rw [List.flatMap_cons, hasBlank_append, ← ih h2, ← h v j h1]
    simp

theorem mapM'_blank {V : Type} {enc : V → Option Json} {f : V → List Str} (h : Faithful enc f) : ∀ {m : GoMap V} {l : List (Str × Json)},
    mapM' enc m = some l → ((∃ x ∈ l, Blank x.1 ∨ HasBlank (strings x.2)) ↔ HasBlank (mapStrings f m)) := by
  intro m
  unfold mapM' mapStrings
  induction m with
  | nil => intro l hl; simp at hl; subst hl; simp [hasBlank_nil]
  | cons v m ih =>
    intro l hl
    simp only [List.mapM_cons, Option.bind_eq_bind, Option.bind_eq_some_iff, Option.pure_def, Option.some.injEq, Option.map_eq_some_iff] at hl
    obtain ⟨x, ⟨j, h1, rfl⟩, l', h2, rfl⟩ := hl
    rw [List.flatMap_cons, hasBlank_append, hasBlank_cons, ← ih h2, ← h _ _ h1]
    simp

theorem plain_digits {s : Str} (h : ∀ c ∈ s, c.isDigit = true) : Plain s := by
  intro c hc
  have h1 := Serve.isDigit_iff.1 (h c hc)
  have h2 : 48 ≤ c.toNat := h1.1
  have h3 : c.toNat ≤ 57 := h1.2
  omega

theorem plain_fmtNat (n : Nat) : Plain (fmtNat n) := plain_digits fun _ h => isDigit_fmtNat h

theorem plain_fmtNatPad (w n : Nat) : Plain (fmtNatPad w n) := by
  unfold fmtNatPad
  refine plain_append ?_ (plain_fmtNat n)
  intro c hc
  rw [List.eq_of_mem_replicate hc]
  decide

theorem plain_timeText (t : Timestamp) : Plain (timeText t) := by
  unfold timeText
  simp only
  have hc : ∀ {c : Char} {b : Str}, c ∈ ['-', ':', 'T', '.', 'Z'] → Plain b → Plain (c :: b) := by
    intro c b h hb
    refine plain_cons ?_ ?_ hb <;> revert h <;> simp only [List.mem_cons, List.not_mem_nil, or_false] <;>
      rintro (rfl | rfl | rfl | rfl | rfl) <;> decide
  refine plain_append (plain_fmtNatPad _ _) (hc (by decide) (plain_append (plain_fmtNatPad _ _) (hc (by decide)
    (plain_append (plain_fmtNatPad _ _) (hc (by decide) (plain_append (plain_fmtNatPad _ _) (hc (by decide)
    (plain_append (plain_fmtNatPad _ _) (hc (by decide) (plain_append (plain_fmtNatPad _ _) (plain_append ?_ (by decide))))))))))))
  split
  · exact hc (by decide) (plain_fmtNatPad _ _)
  split
  · exact hc (by decide) (plain_fmtNatPad _ _)
  split
  · exact hc (by decide) (plain_fmtNatPad _ _)
  · decide

theorem timeJson_faithful : Faithful timeJson (fun _ => []) := by
  intro t j h
  unfold timeJson at h
  split at h
  · simp only [Option.some.injEq] at h
    subst h
    simp [strings, hasBlank_one, hasBlank_nil, plain_not_blank (plain_timeText t)]
  · cases h

theorem doubleJson_faithful (fl : FloatText) : Faithful (fun x => some (doubleJson fl x)) (fun _ => []) := by
  intro x j h
  simp only [Option.some.injEq] at h
  subst h
  unfold doubleJson
  have h1 : ¬ Blank "NaN".toList := plain_not_blank (by decide)
  have h2 : ¬ Blank "Infinity".toList := plain_not_blank (by decide)
  have h3 : ¬ Blank "-Infinity".toList := plain_not_blank (by decide)
  rw [hasBlank_nil, iff_false]
  split
  · rw [strings, hasBlank_one]; exact h1
  split
  · rw [strings, hasBlank_one]; exact h2
  split
  · rw [strings, hasBlank_one]; exact h3
  · simp [strings, hasBlank_nil]

theorem anyJson_faithful (e : Env) : Faithful (anyJson e) (extStrings e) := by
  intro a j h
  unfold anyJson at h
  unfold extStrings
  by_cases hu : a.typeUrl = []
  · rw [if_pos hu] at h ⊢
    split at h
    · simp only [Option.some.injEq] at h; subst h; simp [strings, memberStrings]
    · cases h
  · rw [if_neg hu] at h ⊢
    simp only [Option.map_eq_some_iff] at h
    obtain ⟨ms, hm, rfl⟩ := h
    have : ¬ Blank "@type".toList := plain_not_blank (by decide)
    rw [strings, memberStrings, strings, hasBlank_cons, hm, optStrings, hasBlank_cons, hasBlank_append, hasBlank_one]
    simp only [this, false_or]

theorem hasBlank_optNil {α : Type} {v : Option α} : HasBlank (optStrings (fun _ => []) v) ↔ False := by
  cases v <;> simp [optStrings, hasBlank_nil]

theorem dataJson_faithful (e : Env) : Faithful (dataJson e) attrStrings := by
  intro d j h
  simp only [dataJson, Option.bind_eq_bind, Option.bind_eq_some_iff, Option.some.injEq] at h
  obtain ⟨dbls, h1, time, h2, rfl⟩ := h
  rw [strings, memberStrings_append, memberStrings_append, memberStrings_append]
  simp only [hasBlank_append, attrStrings]
  rw [putList_blank (by decide), putMap_blank (by decide), putMap_blank (by decide), putMsg_blank (by decide),
    mapM'_blank (doubleJson_faithful e.fl) h1, optM_blank timeJson_faithful h2, hasBlank_optNil, or_false]
  refine or_congr (or_congr ?_ ?_) Iff.rfl
  · simp [strings, HasBlank]
  · unfold mapStrings
    rw [hasBlank_flatMap]
    simp [strings, hasBlank_cons, hasBlank_nil]

theorem ticketJson_faithful (e : Env) : Faithful (ticketJson e) (ticketStrings e) := by
  intro t j h
  simp only [ticketJson, Option.bind_eq_bind, Option.bind_eq_some_iff, Option.some.injEq] at h
  obtain ⟨time, h1, data, h2, ext, h3, rfl⟩ := h
  rw [strings, memberStrings_append, memberStrings_append, memberStrings_append]
  simp only [hasBlank_append, ticketStrings, hasBlank_cons]
  rw [putStr_blank (by decide), putMsg_blank (by decide), putMsg_blank (by decide), putMap_blank (by decide),
    optM_blank timeJson_faithful h1, optM_blank (dataJson_faithful e) h2, mapM'_blank (anyJson_faithful e) h3, hasBlank_optNil, or_false, or_assoc]

theorem assignmentJson_faithful (e : Env) : Faithful (assignmentJson e) (assignmentStrings e) := by
  intro a j h
  simp only [assignmentJson, Option.bind_eq_bind, Option.bind_eq_some_iff, Option.some.injEq] at h
  obtain ⟨ext, h3, rfl⟩ := h
  rw [strings, memberStrings_append]
  simp only [hasBlank_append, assignmentStrings, hasBlank_cons]
  rw [putStr_blank (by decide), putMap_blank (by decide), mapM'_blank (anyJson_faithful e) h3]

theorem rosterJson_faithful (e : Env) : Faithful (rosterJson e) (rosterStrings e) := by
  intro r j h
  simp only [rosterJson, Option.bind_eq_bind, Option.bind_eq_some_iff, Option.some.injEq] at h
  obtain ⟨asg, h1, ts, h2, ext, h3, rfl⟩ := h
  rw [strings, memberStrings_append, memberStrings_append, memberStrings_append]
  simp only [hasBlank_append, rosterStrings, hasBlank_cons]
  rw [putStr_blank (by decide), putMsg_blank (by decide), putList_blank (by decide), putMap_blank (by decide),
    optM_blank (assignmentJson_faithful e) h1, mapM_blank (ticketJson_faithful e) h2, mapM'_blank (anyJson_faithful e) h3, or_assoc, or_assoc,
    or_assoc]

theorem matchJson_faithful (e : Env) : Faithful (matchJson e) (matchStrings e) := by
  intro r j h
  simp only [matchJson, Option.bind_eq_bind, Option.bind_eq_some_iff, Option.some.injEq] at h
  obtain ⟨rs, h1, ext, h3, rfl⟩ := h
  rw [strings, memberStrings_append, memberStrings_append]
  simp only [hasBlank_append, matchStrings, hasBlank_cons]
  rw [putStr_blank (by decide), putMap_blank (by decide), putMap_blank (by decide),
    mapM'_blank (rosterJson_faithful e) h1, mapM'_blank (anyJson_faithful e) h3, or_assoc]

theorem mmfResponseJson_faithful (e : Env) : Faithful (mmfResponseJson e) (optStrings (matchStrings e)) := by
  intro o j h
  simp only [mmfResponseJson, Option.map_eq_some_iff] at h
  obtain ⟨x, h1, rfl⟩ := h
  rw [strings, putMsg_blank (by decide), optM_blank (matchJson_faithful e) h1]

end OM.PJ
