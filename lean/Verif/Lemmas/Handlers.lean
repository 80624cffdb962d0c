import Verif.Model.Handlers
import Verif.Spec.Handlers
import Verif.Lemmas.Store
import Verif.Lemmas.Seconds
import Verif.Lemmas.Utf8
/-! # Lemmas: RPC handlers -/
namespace OM
open Spec

/-- `proto.Unmarshal` inverts `proto.Marshal` (up to map order). -/
structure Codec.Lawful (cd : Codec) : Prop where
  ticket : ∀ t b, cd.encT t = some b → SameTicket (cd.decT b) t
  assignment : ∀ a b, cd.encA a = some b → SameAssignment (cd.decA b) a

theorem isValid_iff (o : Option Timestamp) :
    Timestamp.isValid o = true ↔ ∃ t, o = some t ∧ LegalTime t := by
  cases o with
  | none => simp [Timestamp.isValid]
  | some t =>
    have h : Timestamp.isValid (some t) = true ↔ LegalTime t := by
      simp only [Timestamp.isValid]
      rw [decide_eq_true_iff]
      simp only [LegalTime, minTimestampSec, maxTimestampSec, nsPerSec]
      omega
    rw [h]; simp

theorem asTime_some (t : Timestamp) : asTime (some t) = nanosOf t := by simp [asTime, nanosOf, nsPerSec]

theorem nanosOf_newTimestamp (n : Int) : nanosOf (newTimestamp n) = n := by
  simp only [nanosOf, newTimestamp, nsPerSec]; omega

theorem isDigit_iff (c : Char) : c.isDigit = true ↔ c ∈ "0123456789".toList := by
  constructor
  · intro h
    simp only [Char.isDigit, Bool.and_eq_true, decide_eq_true_eq, ge_iff_le] at h
    have h1 : 48 ≤ c.toNat := h.1
    have h2 : c.toNat ≤ 57 := h.2
    have : c = Char.ofNat c.toNat := (Char.ofNat_toNat c).symm
    rw [this]
    generalize c.toNat = n at h1 h2
    have : n = 48 ∨ n = 49 ∨ n = 50 ∨ n = 51 ∨ n = 52 ∨ n = 53 ∨ n = 54 ∨ n = 55 ∨ n = 56 ∨ n = 57 := by omega
    rcases this with rfl | rfl | rfl | rfl | rfl | rfl | rfl | rfl | rfl | rfl <;> decide
  · intro h
    have : "0123456789".toList = ['0','1','2','3','4','5','6','7','8','9'] := rfl
    rw [this] at h
    simp only [List.mem_cons, List.not_mem_nil, or_false] at h
    rcases h with rfl | rfl | rfl | rfl | rfl | rfl | rfl | rfl | rfl | rfl <;> rfl

theorem matchHere_iff (s : Str) :
    matchHere s = true ↔ ∃ a b, s = a ++ '-' :: b ∧ ∀ c ∈ a, c.isDigit = true := by
  unfold matchHere
  constructor
  · intro h
    split at h
    · rename_i rest hd
      refine ⟨s.takeWhile Char.isDigit, rest, ?_, ?_⟩
      · rw [← hd, List.takeWhile_append_dropWhile]
      · intro c hc; exact List.all_eq_true.1 List.all_takeWhile c hc
    · simp at h
  · rintro ⟨a, b, rfl, ha⟩
    rw [List.dropWhile_append_of_pos ha]
    simp [show ('-').isDigit = false from rfl]

theorem dash_mem_iff_matchString (s : Str) : matchString s = true ↔ '-' ∈ s := by
  induction s with
  | nil => simp [matchString, matchHere]
  | cons c cs ih =>
    simp only [matchString, Bool.or_eq_true, ih, List.mem_cons]
    constructor
    · rintro (h | h)
      · obtain ⟨a, b, e, -⟩ := (matchHere_iff _).1 h
        rw [← List.mem_cons, e]; simp
      · exact Or.inr h
    · rintro (h | h)
      · left; rw [matchHere_iff]; exact ⟨[], cs, by simp [h.symm], by simp⟩
      · exact Or.inr h

theorem regexMatches_iff (s : Str) : RegexMatches s ↔ '-' ∈ s := by
  constructor
  · rintro ⟨pre, a, b, post, rfl, -⟩; simp
  · intro h
    obtain ⟨a, b, rfl⟩ := List.append_of_mem h
    exact ⟨a, [], [], b, by simp, by simp [Digits], by simp [Digits]⟩

theorem validate_fold (ids a b : List Str) :
    ids.foldl (fun acc id => if matchString id then (acc.1 ++ [id], acc.2) else (acc.1, acc.2 ++ [id])) (a, b)
      = (a ++ ids.filter matchString, b ++ ids.filter (fun id => !matchString id)) := by
  induction ids generalizing a b with
  | nil => simp
  | cons id ids ih =>
    simp only [List.foldl_cons, List.filter_cons]
    cases h : matchString id <;> simp [ih]

theorem validateTicketIds_eq (ids : List Str) :
    validateTicketIds ids = (ids.filter matchString, ids.filter (fun id => !matchString id)) := by
  rw [validateTicketIds, validate_fold]; simp

/-- Keys of the collected error map: results of failed responses. -/
theorem collectErrs_spec (cmd : Cmd) (ids : List Str) (rs : List StateResponse) (errs : GoMap Str)
    (hl : rs.length = ids.length) :
    ∃ m, collectErrs cmd ids rs errs = some m ∧
      (∀ k, k ∈ m.keys ↔ k ∈ errs.keys ∨ ∃ r ∈ rs, r.err.isSome ∧ r.result = k) := by
  induction ids generalizing rs errs with
  | nil =>
    cases rs with
    | nil => exact ⟨errs, rfl, by simp⟩
    | cons r rs => simp at hl
  | cons id ids ih =>
    cases rs with
    | nil => simp at hl
    | cons r rs =>
      simp only [collectErrs]
      cases he : r.err with
      | none =>
        obtain ⟨m, h1, h2⟩ := ih rs errs (by simpa using hl)
        refine ⟨m, h1, fun k => ?_⟩
        rw [h2]; simp [he]
      | some e =>
        obtain ⟨m, h1, h2⟩ := ih rs (errs.store r.result (updateErrMsg cmd id e)) (by simpa using hl)
        refine ⟨m, h1, fun k => ?_⟩
        rw [h2, GoMap.mem_keys_store]
        constructor
        · rintro ((rfl | h) | ⟨r', h', h''⟩)
          · exact Or.inr ⟨r, by simp, by simp [he], rfl⟩
          · exact Or.inl h
          · exact Or.inr ⟨r', by simp [h'], h''⟩
        · rintro (h | ⟨r', h', h3, h4⟩)
          · exact Or.inl (Or.inr h)
          · rcases List.mem_cons.1 h' with rfl | h'
            · exact Or.inl (Or.inl h4.symm)
            · exact Or.inr ⟨r', h', h3, h4⟩

theorem collectErrs_WF (cmd : Cmd) (ids : List Str) (rs : List StateResponse) (errs m : GoMap Str)
    (wf : errs.WF) (h : collectErrs cmd ids rs errs = some m) : m.WF := by
  induction ids generalizing rs errs with
  | nil => simp [collectErrs] at h; subst h; exact wf
  | cons id ids ih =>
    cases rs with
    | nil => simp [collectErrs] at h
    | cons r rs =>
      simp only [collectErrs] at h
      refine ih _ _ ?_ h
      split
      · exact wf
      · exact GoMap.WF_store wf _ _

/-- A failed response carries texts. -/
def TextErr (r : StateResponse) : Prop := ∀ e, r.err = some e → IsText r.result ∧ IsText e

theorem isText_updateErrMsg (cmd : Cmd) {id e : Str} (hi : IsText id) (he : IsText e) : IsText (updateErrMsg cmd id e) := by
  have h1 : IsText "Unable to update ticket ".toList := Wire.isText_ascii (by decide)
  have h2 : IsText " state to ".toList := Wire.isText_ascii (by decide)
  have h3 : IsText " : ".toList := Wire.isText_ascii (by decide)
  have h4 : IsText (stateWord cmd) := by
    cases cmd <;> first | exact Wire.isText_ascii (by decide) | exact Wire.isText_nil
  exact Wire.isText_append (Wire.isText_append (Wire.isText_append (Wire.isText_append (Wire.isText_append h1 hi) h2) h4) h3) he

theorem mem_store {V : Type} {m : GoMap V} {k : Str} {v : V} {e : Str × V} (h : e ∈ m.store k v) : e = (k, v) ∨ e ∈ m := by
  simp only [GoMap.store, List.mem_append, List.mem_singleton] at h
  rcases h with h | h
  · right
    simp only [GoMap.delete] at h
    exact List.mem_of_mem_filter h
  · exact Or.inl h

theorem collectErrs_text (cmd : Cmd) (ids : List Str) (rs : List StateResponse) (errs m : GoMap Str)
    (hi : ∀ id ∈ ids, IsText id) (hr : ∀ r ∈ rs, TextErr r) (he : ∀ e ∈ errs, IsText e.1 ∧ IsText e.2)
    (h : collectErrs cmd ids rs errs = some m) : ∀ e ∈ m, IsText e.1 ∧ IsText e.2 := by
  induction ids generalizing rs errs with
  | nil => simp [collectErrs] at h; subst h; exact he
  | cons id ids ih =>
    cases rs with
    | nil => simp [collectErrs] at h
    | cons r rs =>
      simp only [collectErrs] at h
      refine ih _ _ (fun i hi' => hi i (by simp [hi'])) (fun x hx => hr x (by simp [hx])) ?_ h
      cases hre : r.err with
      | none => exact he
      | some t =>
        intro e hee
        obtain ⟨t1, t2⟩ := hr r (by simp) t hre
        rcases mem_store hee with rfl | hm
        · exact ⟨t1, isText_updateErrMsg cmd (hi id (by simp)) t2⟩
        · exact he e hm

/-- With texts only, an error is reported. -/
theorem addDetails_text {order : GoMap Str} (h : ∀ e ∈ order, IsText e.1 ∧ IsText e.2) (hne : order ≠ []) :
    addStateUpdateErrorDetails order = some ⟨.invalidArgument, "One or more state update arguments were invalid".toList,
      order.map fun e => ("ticketId/".toList ++ e.1, e.2)⟩ := by
  unfold addStateUpdateErrorDetails
  rw [if_pos (List.length_pos_iff.2 hne)]
  refine if_pos ?_
  rw [List.all_eq_true]
  intro d hd
  obtain ⟨e, he, rfl⟩ := List.mem_map.1 hd
  rw [Bool.and_eq_true, Wire.utf8Valid_iff, Wire.utf8Valid_iff]
  exact ⟨Wire.isText_append (Wire.isText_ascii (by decide)) (h e he).1, (h e he).2⟩

/-- What an error of `addStateUpdateErrorDetails` is. -/
theorem addDetails_some {order : GoMap Str} {e : RpcErr} (h : addStateUpdateErrorDetails order = some e) :
    order ≠ [] ∧ e = ⟨.invalidArgument, "One or more state update arguments were invalid".toList,
      order.map fun e => ("ticketId/".toList ++ e.1, e.2)⟩ := by
  unfold addStateUpdateErrorDetails at h
  split at h
  · rename_i hl
    simp only at h
    split at h
    · injection h with h; exact ⟨List.length_pos_iff.1 hl, h.symm⟩
    · simp at h
  · simp at h

end OM
