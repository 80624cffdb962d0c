import Verif.Model.Limits
import Verif.Lemmas.Size
/-! # Lemmas: the sizes of matches and of accepted tickets -/
namespace OM.Limits
open OM.Wire OM.Mmf

theorem ext_nil (f : Nat) : (ser (extF f [])).length = 0 := rfl

theorem ext_cons (f : Nat) (hf : f < 15) (k : Str) (a : AnyPb) (m : GoMap AnyPb)
    (h : k.length + a.typeUrl.length + a.value.length < 100000000) :
    (ser (extF f ((k, a) :: m))).length ≤ 25 + k.length + a.typeUrl.length + a.value.length + (ser (extF f m)).length := by
  have h1 := mapField_cons f (k, a) m (fun a => ser (anyF a))
  have h2 := extEntry_le f hf k a h
  simp only at h1
  unfold extF
  omega

theorem anyTime_room (t : Timestamp) : (anyTime t).typeUrl.length + (anyTime t).value.length ≤ 70 := by
  have h1 := timestamp_le t
  have h2 : (anyTime t).typeUrl.length = 45 := (show "type.googleapis.com/google.protobuf.Timestamp".toList.length = 45 by decide +kernel)
  have h3 : (anyTime t).value = ser (timestampF t) := rfl
  rw [h2, h3]; omega

theorem anyString_room (s : Str) (h : s.length < 1000000) : (anyString s).typeUrl.length + (anyString s).value.length ≤ 60 + s.length := by
  have h1 := ser_strField_le 1 (by omega) s
  have h2 : (anyString s).typeUrl.length = 47 := (show "type.googleapis.com/google.protobuf.StringValue".toList.length = 47 by decide +kernel)
  have h3 : (anyString s).value = ser (strField 1 s) := rfl
  have := vl4 (n := s.length) (by omega)
  rw [h2, h3]; omega

theorem anyInt_room (v : Int) : (anyInt32 v).typeUrl.length + (anyInt32 v).value.length ≤ 60 := by
  have h1 := intField_le_any 1 (by omega) v
  have h2 : (anyInt32 v).typeUrl.length = 46 := (show "type.googleapis.com/google.protobuf.Int32Value".toList.length = 46 by decide +kernel)
  have h3 : (anyInt32 v).value = ser (intField 1 v) := rfl
  rw [h2, h3]; omega

/-- The extensions of a match, followed by others. -/
theorem extensions_le (name prof : Str) (more : GoMap AnyPb) (hn : name.length < 1000) (hp : prof.length ≤ 10000) :
    (ser (extF 3 (extensionsFor name prof ++ more))).length ≤ 300 + name.length + prof.length + (ser (extF 3 more)).length := by
  have h1 := anyInt_room 100
  have h2 := anyString_room name (by omega)
  have h3 := anyString_room prof (by omega)
  unfold extensionsFor
  have e1 := ext_cons 3 (by omega) "score".toList (anyInt32 100)
    ([("mmfName".toList, anyString name), ("profileName".toList, anyString prof)] ++ more) (by simp; omega)
  have e2 := ext_cons 3 (by omega) "mmfName".toList (anyString name) ([("profileName".toList, anyString prof)] ++ more) (by simp; omega)
  have e3 := ext_cons 3 (by omega) "profileName".toList (anyString prof) more (by simp; omega)
  simp only [List.cons_append, List.nil_append] at e1 e2 ⊢
  have l1 : "score".toList.length = 5 := rfl
  have l2 : "mmfName".toList.length = 7 := rfl
  have l3 : "profileName".toList.length = 11 := rfl
  omega

theorem time_ext_le (f : Nat) (hf : f < 15) (k : Str) (hk : k.length = 12) (t : Timestamp) :
    (ser (extF f [(k, anyTime t)])).length ≤ 110 := by
  have h1 := anyTime_room t
  have e1 := ext_cons f hf k (anyTime t) [] (by omega)
  have := ext_nil f
  omega

/-- A roster and its room. -/
theorem roster_le (rn : Str) (ts : List Ticket) (ext : GoMap AnyPb) (h : rn.length < 100000) :
    (ser (rosterF ⟨rn, none, ts, ext⟩)).length ≤ 5 + rn.length + slots ts + (ser (extF 4 ext)).length := by
  have h0 := roster_size rn ts
  simp only [rosterF, ser_length_append, Option.map_none] at h0 ⊢
  have h2 : (ser (extF 4 [])).length = 0 := rfl
  have h3 := ser_strField_le 1 (by omega) rn
  have := vl4 (n := rn.length) (by omega)
  omega

theorem roster_ge (rn : Str) (ts : List Ticket) (ext : GoMap AnyPb) : slots ts ≤ (ser (rosterF ⟨rn, none, ts, ext⟩)).length := by
  have h0 := roster_size rn ts
  simp only [rosterF, ser_length_append, Option.map_none] at h0 ⊢
  have h2 : (ser (extF 4 [])).length = 0 := rfl
  omega

theorem response_len (m : Match) : responseSize m = 1 + vl (ser (matchF m)).length + (ser (matchF m)).length := by
  unfold responseSize responseF msgField
  exact ser_len1 1 _ (by omega)

/-- A match with one roster, longer than its tickets. -/
theorem response_ge (id rn name : Str) (ts : List Ticket) (ext ext' : GoMap AnyPb) :
    slots ts ≤ responseSize ⟨id, [(rn, ⟨name, none, ts, ext⟩)], ext'⟩ := by
  rw [response_len]
  have h1 := roster_ge name ts ext
  have h2 := mapEntry_ge 2 (by omega) rn (ser (rosterF ⟨name, none, ts, ext⟩))
  have h3 := mapField_cons 2 (rn, (⟨name, none, ts, ext⟩ : Roster)) [] (fun r => ser (rosterF r))
  simp only at h3
  simp only [matchF, ser_length_append]
  omega

/-- What the rosters of a match take. -/
def rostersRoom (m : Match) : Nat := (ser (mapField 2 m.rosters fun r => .len (ser (rosterF r)))).length

theorem rosterEntry_le (rn name : Str) (ts : List Ticket) (ext : GoMap AnyPb) (rest : GoMap Roster) (h1 : rn.length < 50000)
    (h2 : name.length < 50000) (h3 : slots ts < 5000000) (h4 : (ser (extF 4 ext)).length ≤ 110) :
    (ser (mapField 2 ((rn, (⟨name, none, ts, ext⟩ : Roster)) :: rest) fun r => .len (ser (rosterF r)))).length ≤
      130 + rn.length + name.length + slots ts + (ser (mapField 2 rest fun r => .len (ser (rosterF r)))).length := by
  have e1 := mapField_cons 2 (rn, (⟨name, none, ts, ext⟩ : Roster)) rest (fun r => ser (rosterF r))
  have e2 := roster_le name ts ext (by omega)
  have e3 := mapEntry_le 2 (by omega) rn (ser (rosterF ⟨name, none, ts, ext⟩)) (by omega)
  unfold entryRoom at e3
  simp only at e1
  omega

theorem response_le (m : Match) (h1 : m.id.length ≤ 10000) (h2 : rostersRoom m ≤ 4150000) (h3 : (ser (extF 3 m.extensions)).length ≤ 20000) :
    responseSize m ≤ 4194304 := by
  rw [response_len]
  have hs := ser_strField_le 1 (by omega) m.id
  have v1 := vl4 (n := m.id.length) (by omega)
  have hm : (ser (matchF m)).length ≤ 4180100 := by
    simp only [matchF, ser_length_append]
    unfold rostersRoom at h2
    omega
  have v2 := vl4 (n := (ser (matchF m)).length) (by omega)
  omega

theorem slots_le (ts : List Ticket) (h : ∀ t ∈ ts, sizeTicket t ≤ 41000) : slots ts ≤ 41005 * ts.length := by
  induction ts with
  | nil => simp [slots]
  | cons t ts ih =>
    have h1 := ih fun x hx => h x (List.mem_cons_of_mem _ hx)
    have h2 := h t (List.mem_cons_self ..)
    have := vl4 (n := sizeTicket t) (by omega)
    simp only [slots, List.map_cons, List.sum_cons, List.length_cons] at h1 ⊢
    have h3 : slot t ≤ 41005 := by unfold slot; omega
    omega

theorem fmtNatPad_le (w n : Nat) : (fmtNatPad w n).length ≤ w + (fmtNat n).length := by
  unfold fmtNatPad
  simp

theorem matchId_ge (name t : Str) (n : Nat) : (fmtNat n).length ≤ (matchId name t n).length := by
  unfold matchId
  simp only [List.length_append]
  omega

end OM.Limits
