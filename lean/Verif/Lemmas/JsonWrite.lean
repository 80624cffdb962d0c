import Verif.Lemmas.Json
/-! Lemmas on `Model/Json`: what the writer writes is the value. -/
namespace OM.Json
open OM.Spec

mutual
/-- Every number in the value is one. -/
def numsOk : Json → Prop
  | .null => True
  | .bool _ => True
  | .num t => IsNumber t
  | .str _ => True
  | .arr l => numsOks l
  | .obj l => numsOkm l
def numsOks : List Json → Prop
  | [] => True
  | j :: l => numsOk j ∧ numsOks l
def numsOkm : List (Str × Json) → Prop
  | [] => True
  | (_, j) :: l => numsOk j ∧ numsOkm l
end

theorem numsOks_iff (l : List Json) : numsOks l ↔ ∀ j ∈ l, numsOk j := by
  induction l with
  | nil => simp [numsOks]
  | cons j l ih => simp [numsOks, ih]

theorem numsOkm_iff (l : List (Str × Json)) : numsOkm l ↔ ∀ m ∈ l, numsOk m.2 := by
  induction l with
  | nil => simp [numsOkm]
  | cons j l ih => simp [numsOkm, ih]

theorem textOks_iff (l : List Json) : textOks l = true ↔ ∀ j ∈ l, textOk j = true := by
  induction l with
  | nil => simp [textOks]
  | cons j l ih => simp [textOks, ih]

theorem textOkm_iff (l : List (Str × Json)) : textOkm l = true ↔ ∀ m ∈ l, Wire.utf8Valid m.1 = true ∧ textOk m.2 = true := by
  induction l with
  | nil => simp [textOkm]
  | cons j l ih => simp [textOkm, ih]

theorem hexDigit_ok {n : Nat} (h : n < 16) : HexDigit (hexDigit n) n := by
  left
  interval_cases n <;> decide

theorem escape_text (html : Bool) (c : Char) {t s : Str} (h : StrText t s) : StrText (escape html c ++ t) (c :: s) := by
  unfold escape
  have short : ∀ (e : Char) (n : Nat), c.toNat = n → (e, n) ∈ shortEscapes → StrText (['\\', e] ++ t) (c :: s) := by
    intro e n hn hm
    rw [char_eq_ofNat hn]
    exact .short hm h
  split
  · rename_i hc; exact short '"' 34 (by rw [hc]; rfl) (by decide)
  split
  · rename_i hc; exact short '\\' 92 (by rw [hc]; rfl) (by decide)
  split
  · rename_i hc; exact short 'b' 8 hc (by decide)
  split
  · rename_i hc; exact short 'f' 12 hc (by decide)
  split
  · rename_i hc; exact short 'n' 10 hc (by decide)
  split
  · rename_i hc; exact short 'r' 13 hc (by decide)
  split
  · rename_i hc; exact short 't' 9 hc (by decide)
  split
  · rename_i hc
    have hlt : c.toNat < 0x80 := by
      rcases hc with hc | ⟨-, rfl | rfl | rfl⟩
      · omega
      · decide
      · decide
      · decide
    have hb : charBytes c = [c] := by
      rw [← appendRune_charBytes, appendRune, if_pos hlt, ← char_eq_ofNat rfl]
    have h4 : Hex4 ['0', '0', hexDigit (c.toNat / 16), hexDigit (c.toNat % 16)] c.toNat :=
      ⟨_, _, _, _, 0, 0, c.toNat / 16, c.toNat % 16, rfl, by left; rfl, by left; rfl, hexDigit_ok (by omega), hexDigit_ok (by omega), by omega⟩
    have := StrText.unicode h4 h
    rw [hb] at this
    exact this
  · rename_i h1 h2 _ _ _ _ _ h3
    rw [not_or] at h3
    exact .plain h1 h2 (by omega) h

theorem escapes_text (html : Bool) (s : Str) : StrText (escapes html s) s := by
  fun_induction escapes html s with
  | case1 c a b s h ih =>
    obtain ⟨-, hc, ha, hb⟩ := h
    rcases hb with hb | hb
    · have := StrText.unicode (c := Char.ofNat 0x2028) (h := ['2', '0', '2', '8'])
        ⟨_, _, _, _, 2, 0, 2, 8, rfl, by left; rfl, by left; rfl, by left; rfl, by left; rfl, by decide⟩ ih
      rw [char_eq_ofNat hc, char_eq_ofNat ha, char_eq_ofNat hb]
      rw [show charBytes (Char.ofNat 0x2028) = [Char.ofNat 0xE2, Char.ofNat 0x80, Char.ofNat 0xA8] from by decide +kernel] at this
      exact this
    · have := StrText.unicode (c := Char.ofNat 0x2029) (h := ['2', '0', '2', '9'])
        ⟨_, _, _, _, 2, 0, 2, 9, rfl, by left; rfl, by left; rfl, by left; rfl, by left; rfl, by decide⟩ ih
      rw [char_eq_ofNat hc, char_eq_ofNat ha, char_eq_ofNat hb]
      rw [show charBytes (Char.ofNat 0x2029) = [Char.ofNat 0xE2, Char.ofNat 0x80, Char.ofNat 0xA9] from by decide +kernel] at this
      exact this
  | case2 c a b s _ ih => exact escape_text html c ih
  | case3 c s _ ih => exact escape_text html c ih
  | case4 => exact .nil

theorem write_text (html : Bool) {sep : Str} (hs : Ws sep) (j : Json) : numsOk j → JText j (write html sep j) := by
  have hw0 : Ws [] := by intro c hc; cases hc
  refine Json.rec
    (motive_1 := fun j => numsOk j → JText j (write html sep j))
    (motive_2 := fun l => numsOks l → ∀ w, Ws w → l ≠ [] → JElems l (w ++ writeElems html sep l))
    (motive_3 := fun l => numsOkm l → ∀ w, Ws w → l ≠ [] → JMembers l (w ++ writeMembers html sep l))
    (motive_4 := fun m => numsOk m.2 → JText m.2 (write html sep m.2))
    ?_ ?_ ?_ ?_ ?_ ?_ ?_ ?_ ?_ ?_ ?_ j
  · intro _; exact .null
  · intro b _; cases b
    · exact .false
    · exact .true
  · intro t h; exact .num h
  · intro s _; rw [write, writeStr]; exact .str (escapes_text html s)
  · intro l ih h
    rw [write]
    cases l with
    | nil => exact .noElems hw0
    | cons j l => exact .arr (by simpa using ih h [] hw0 (by simp))
  · intro l ih h
    rw [write]
    cases l with
    | nil => exact .noMembers hw0
    | cons j l => exact .obj (by simpa using ih h [] hw0 (by simp))
  · intro _ w _ h; exact absurd rfl h
  · intro j l ihj ihl h w hw _
    cases l with
    | nil =>
      have := JElems.one hw (ihj h.1) hw0
      rw [List.append_nil] at this
      exact this
    | cons k l =>
      have := JElems.cons hw (ihj h.1) hw0 (ihl h.2 sep hs (by simp))
      rw [writeElems.eq_3 _ _ _ _ (by simp)]
      simpa using this
  · intro _ w _ h; exact absurd rfl h
  · rintro ⟨k, j⟩ l ihj ihl h w hw _
    cases l with
    | nil =>
      have := JMembers.one hw (escapes_text html k) hw0 hw0 (ihj h.1) hw0
      rw [writeMembers, writeStr]
      simpa using this
    | cons m l =>
      have := JMembers.cons hw (escapes_text html k) hw0 hw0 (ihj h.1) hw0 (ihl h.2 sep hs (by simp))
      rw [writeMembers.eq_3 _ _ _ _ _ (by simp), writeStr]
      simpa using this
  · intro k j ih h; exact ih h

/-- What the writer writes is a document with the value, if its strings are texts. -/
theorem write_doc (html : Bool) {sep : Str} (hs : Ws sep) {j : Json} (hn : numsOk j) (ht : textOk j = true) : JDoc j (write html sep j) := by
  have h := write_text html hs j hn
  refine ⟨(Wire.utf8Valid_iff _).mp ((utf8Valid_V _).mpr ((jtext_V h).mpr ht)), [], _, [], by simp, ?_, h, ?_⟩ <;> (intro c hc; cases hc)

end OM.Json
