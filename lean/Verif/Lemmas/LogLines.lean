import Verif.Spec.LogLines
import Verif.Lemmas.Errors
import Verif.Lemmas.JsonWrite
import Verif.Lemmas.JsonBlank
/-! Lemmas on `Model/LogLines`. -/
namespace OM.LogL
open OM.Spec OM.Err OM.Json

/-! ## Bytes and characters -/

theorem toNat_ofNat {n : Nat} (h : n < 0xD800) : (Char.ofNat n).toNat = n := by
  have hv : n.isValidChar := .inl h
  simp [Char.ofNat, dif_pos hv, Char.toNat, Char.ofNatAux]

/-- The bytes of a character that is not ASCII are not ASCII either; and its number can be read from them. -/
theorem charBytes_shape (c : Char) : (c.toNat < 0x80 ∧ charBytes c = [c]) ∨
    (0x80 ≤ c.toNat ∧ ∀ b ∈ charBytes c, 0x80 ≤ b.toNat) := by
  by_cases h : c.toNat < 0x80
  · exact .inl ⟨h, charBytes_low h⟩
  refine .inr ⟨by omega, ?_⟩
  have hr := Json.char_lt c
  rw [← appendRune_charBytes]
  generalize c.toNat = v at *
  intro b hb
  unfold appendRune at hb
  rw [if_neg h] at hb
  split at hb
  · simp only [List.mem_cons, List.not_mem_nil, or_false] at hb
    rcases hb with rfl | rfl <;> rw [toNat_ofNat (by omega)] <;> omega
  split at hb
  · simp only [List.mem_cons, List.not_mem_nil, or_false] at hb
    rcases hb with rfl | rfl | rfl <;> rw [toNat_ofNat (by omega)] <;> omega
  · simp only [List.mem_cons, List.not_mem_nil, or_false] at hb
    rcases hb with rfl | rfl | rfl | rfl <;> rw [toNat_ofNat (by omega)] <;> omega

theorem rv1 (a : Char) : runeVal [a] = a.toNat := rfl
theorem rv2 (a b : Char) : runeVal [a, b] = (a.toNat - 0xC0) * 64 + (b.toNat - 0x80) := rfl
theorem rv3 (a b c : Char) : runeVal [a, b, c] = (a.toNat - 0xE0) * 4096 + (b.toNat - 0x80) * 64 + (c.toNat - 0x80) := rfl
theorem rv4 (a b c d : Char) : runeVal [a, b, c, d] =
    (a.toNat - 0xF0) * 262144 + (b.toNat - 0x80) * 4096 + (c.toNat - 0x80) * 64 + (d.toNat - 0x80) := rfl

theorem runeVal_charBytes (c : Char) : runeVal (charBytes c) = c.toNat := by
  have hr := Json.char_lt c
  rw [← appendRune_charBytes]
  generalize c.toNat = v at *
  unfold appendRune
  by_cases h1 : v < 0x80
  · rw [if_pos h1, rv1, toNat_ofNat (by omega)]
  rw [if_neg h1]
  by_cases h2 : v < 0x800
  · rw [if_pos h2, rv2, toNat_ofNat (by omega), toNat_ofNat (by omega)]; omega
  rw [if_neg h2]
  by_cases h3 : v < 0x10000
  · rw [if_pos h3, rv3, toNat_ofNat (by omega), toNat_ofNat (by omega), toNat_ofNat (by omega)]; omega
  · rw [if_neg h3, rv4, toNat_ofNat (by omega), toNat_ofNat (by omega), toNat_ofNat (by omega), toNat_ofNat (by omega)]; omega

theorem newline_flatMap {text : List Char} (h : '\n' ∉ text) : '\n' ∉ text.flatMap charBytes := by
  intro hm
  obtain ⟨c, hc, hb⟩ := List.mem_flatMap.mp hm
  rcases charBytes_shape c with ⟨-, h2⟩ | ⟨-, h2⟩
  · rw [h2, List.mem_singleton] at hb
    exact h (hb ▸ hc)
  · exact absurd (h2 _ hb) (by decide)

/-! ## Repairing -/

theorem repairF_repaired : ∀ (n : Nat) (m : Str), m.length ≤ n → Repaired m (repairF n m)
  | 0, [], _ => .nil
  | _ + 1, [], _ => .nil
  | 0, _ :: _, h => by simp at h
  | n + 1, c :: s, h => by
    have hs : s.length ≤ n := by simpa using h
    rw [repairF]
    split
    · rename_i hr
      rw [runeError_eq]
      exact .bad (runeSize_none hr) (repairF_repaired n s hs)
    · rename_i k hr
      obtain ⟨x, h1, h2, h3, -⟩ := runeSize_some hr
      rw [h1]
      have ih := repairF_repaired n ((c :: s).drop k) (by rw [List.length_drop, List.length_cons]; omega)
      have := Repaired.char x ih
      rwa [← h2] at this

theorem repair_repaired (s : Str) : Repaired s (repair s) := repairF_repaired _ _ le_rfl

/-! ## Sorting -/

theorem insertKey_perm (x : Str × Str) : ∀ l, (insertKey x l).Perm (x :: l)
  | [] => .refl _
  | y :: l => by
    rw [insertKey]
    split
    · exact .refl _
    · exact ((insertKey_perm x l).cons y).trans (List.Perm.swap x y l)

theorem sortKeys_perm : ∀ l, (sortKeys l).Perm l
  | [] => .refl _
  | x :: l => (insertKey_perm x _).trans ((sortKeys_perm l).cons x)

/-! ## JSON -/

theorem levelName_ok (l : Log.Level) : LevelName l (levelName l) := by cases l <;> simp [LevelName, levelName]

theorem levelName_unique {l : Log.Level} {s : Str} (h : LevelName l s) : s = levelName l := by
  cases l <;> simp [LevelName] at h <;> subst h <;> rfl

theorem mem_values (r : Record) (k v : Str) : (k, v) ∈ values r ↔ Says1 r k v := by
  unfold values
  constructor
  · intro h
    rcases List.mem_append.mp h with h | h
    · exact .field h
    simp only [List.mem_cons, List.not_mem_nil, or_false, Prod.mk.injEq] at h
    rcases h with ⟨rfl, rfl⟩ | ⟨rfl, rfl⟩ | ⟨rfl, rfl⟩
    · exact .level (levelName_ok _)
    · exact .msg
    · exact .time
  · rintro (h | _ | _ | h)
    · rw [levelName_unique h]; simp
    · simp
    · simp
    · exact List.mem_append_left _ h

theorem own_names : ∀ k ∈ ["level".toList, "msg".toList, "time".toList], k ∉ fieldNames := by decide +kernel

theorem names_text : ∀ k ∈ fieldNames ++ ["level".toList, "msg".toList, "time".toList], Wire.utf8Valid k = true := by decide +kernel

theorem values_nodup {r : Record} (h : GoodRecord r) : ((values r).map (·.1)).Nodup := by
  unfold values
  rw [List.map_append, List.nodup_append]
  refine ⟨h.2.2, by simp, ?_⟩
  rintro a ha b hb rfl
  obtain ⟨x, hx, rfl⟩ := List.mem_map.mp ha
  exact own_names x.1 (by simpa using hb) (h.2.1 x hx).1

/-- The members of a line. -/
def members (r : Record) : List (Str × Json) := (sortKeys (values r)).map fun x => (x.1, .str (repair x.2))

theorem members_nums (r : Record) : numsOk (.obj (members r)) := by
  rw [numsOk, numsOkm_iff]
  intro m hm
  obtain ⟨x, -, rfl⟩ := List.mem_map.mp hm
  trivial

theorem members_text {r : Record} (h : GoodRecord r) : textOk (.obj (members r)) = true := by
  rw [textOk, textOkm_iff]
  intro m hm
  obtain ⟨x, hx, rfl⟩ := List.mem_map.mp hm
  constructor
  · have hx := (sortKeys_perm _).mem_iff.mp hx
    unfold values at hx
    apply names_text
    rcases List.mem_append.mp hx with hx | hx
    · exact List.mem_append_left _ (h.2.1 x hx).1
    · refine List.mem_append_right _ ?_
      simp only [List.mem_cons, List.not_mem_nil, or_false] at hx
      rcases hx with rfl | rfl | rfl <;> simp
  · rw [textOk]
    exact (Wire.utf8Valid_iff _).mpr (repaired_text (repair_repaired _))

theorem json_shows {r : Record} (h : GoodRecord r) : ShowsJson r (write true [] (.obj (members r))) := by
  refine ⟨members r, write_doc true (by simp [Ws]) (members_nums r) (members_text h), ?_, ?_, ?_⟩
  · unfold members
    rw [List.map_map]
    exact ((sortKeys_perm (values r)).map (·.1)).nodup_iff.mpr (values_nodup h)
  · intro k v hs
    exact ⟨repair v, repair_repaired v, List.mem_map.mpr ⟨(k, v), (sortKeys_perm _).mem_iff.mpr ((mem_values r k v).mpr hs), rfl⟩⟩
  · intro k j hm
    obtain ⟨⟨k', v⟩, hx, he⟩ := List.mem_map.mp hm
    cases he
    exact ⟨v, repair v, (mem_values r k' v).mp ((sortKeys_perm _).mem_iff.mp hx), repair_repaired v, rfl⟩

theorem json_newline {r : Record} (h : GoodRecord r) : '\n' ∉ write true [] (.obj (members r)) := by
  obtain ⟨text, e, hn, -⟩ := write_line _ (members_nums r) (members_text h)
  rw [e]
  exact newline_flatMap hn

/-! ## Go strings -/

theorem hexDigit_num {n : Nat} (h : n < 16) : HexDigit (Json.hexDigit n) n := Json.hexDigit_ok h

theorem hexPad_len : ∀ n v, (hexPad n v).length = n
  | 0, _ => rfl
  | n + 1, v => by rw [hexPad, List.length_append, hexPad_len n]; rfl

theorem hexPad_num : ∀ n v, v < 16 ^ n → HexNum (hexPad n v) v
  | 0, v, h => by
    have : v = 0 := by simpa using h
    subst this
    exact .nil
  | n + 1, v, h => by
    have h1 : v / 16 < 16 ^ n := by
      rw [Nat.pow_succ] at h
      exact Nat.div_lt_of_lt_mul (by omega)
    have := HexNum.snoc (hexPad_num n (v / 16) h1) (hexDigit_num (Nat.mod_lt v (by decide : 0 < 16)))
    rwa [show v / 16 * 16 + v % 16 = v by omega] at this

theorem goLit_plains {a t s : Str} (h : ∀ c ∈ a, c ≠ '"' ∧ c ≠ '\\' ∧ c ≠ '\n') (ht : GoLit t s) : GoLit (a ++ t) (a ++ s) := by
  induction a with
  | nil => exact ht
  | cons c a ih =>
    have hc := h c List.mem_cons_self
    exact .plain hc.1 hc.2.1 hc.2.2 (ih fun d hd => h d (List.mem_cons_of_mem _ hd))

theorem quoteRune_lit {pr : Nat → Bool} (hp : Prints pr) (x : Char) {t s : Str} (ht : GoLit t s) :
    GoLit (quoteRune pr (charBytes x) ++ t) (charBytes x ++ s) := by
  unfold quoteRune
  dsimp only
  rw [runeVal_charBytes]
  have low : ∀ n : Nat, n < 0x80 → x.toNat = n → charBytes x = [Char.ofNat n] := by
    intro n hn hx
    rw [charBytes_low (by omega), Json.char_eq_ofNat hx]
  have hx := Json.char_lt x
  split
  · rename_i h
    rcases h with h | h
    · rw [low _ (by decide) h]; exact .short (e := '"') (n := 34) (by decide) ht
    · rw [low _ (by decide) h]; exact .short (e := '\\') (n := 92) (by decide) ht
  rename_i hq
  split
  · rename_i hpr
    refine goLit_plains ?_ ht
    intro c hc
    rcases charBytes_shape x with ⟨h1, h2⟩ | ⟨-, h2⟩
    · rw [h2, List.mem_singleton] at hc
      subst hc
      refine ⟨?_, ?_, ?_⟩ <;> rintro rfl
      · exact hq (.inl rfl)
      · exact hq (.inr rfl)
      · rw [hp _ (by decide)] at hpr; cases hpr
    · refine ⟨?_, ?_, ?_⟩ <;> rintro rfl <;> exact absurd (h2 _ hc) (by decide)
  split
  · rename_i h; rw [low _ (by decide) h]; exact .short (e := 'a') (n := 7) (by decide) ht
  split
  · rename_i h; rw [low _ (by decide) h]; exact .short (e := 'b') (n := 8) (by decide) ht
  split
  · rename_i h; rw [low _ (by decide) h]; exact .short (e := 'f') (n := 12) (by decide) ht
  split
  · rename_i h; rw [low _ (by decide) h]; exact .short (e := 'n') (n := 10) (by decide) ht
  split
  · rename_i h; rw [low _ (by decide) h]; exact .short (e := 'r') (n := 13) (by decide) ht
  split
  · rename_i h; rw [low _ (by decide) h]; exact .short (e := 't') (n := 9) (by decide) ht
  split
  · rename_i h; rw [low _ (by decide) h]; exact .short (e := 'v') (n := 11) (by decide) ht
  split
  · rename_i h
    rw [charBytes_low (by omega)]
    exact .byte (hexPad_len _ _) (hexPad_num _ _ (by omega)) ht
  split
  · exact .rune (hexPad_len _ _) (hexPad_num _ _ (by omega)) ht
  · exact .long (hexPad_len _ _) (hexPad_num _ _ (by omega)) ht

theorem quoteF_lit {pr : Nat → Bool} (hp : Prints pr) : ∀ (n : Nat) (s : Str), s.length ≤ n → (∀ c ∈ s, c.toNat < 256) → GoLit (quoteF pr n s) s
  | 0, [], _, _ => .nil
  | _ + 1, [], _, _ => .nil
  | 0, _ :: _, h, _ => by simp at h
  | n + 1, c :: s, h, hb => by
    have hs : s.length ≤ n := by simpa using h
    rw [quoteF]
    split
    · have ih := quoteF_lit hp n s hs fun d hd => hb d (List.mem_cons_of_mem _ hd)
      exact .byte (hexPad_len _ _) (hexPad_num _ _ (by have := hb c List.mem_cons_self; omega)) ih
    · rename_i k hr
      obtain ⟨x, h1, h2, h3, -⟩ := runeSize_some hr
      have ih := quoteF_lit hp n ((c :: s).drop k) (by rw [List.length_drop, List.length_cons]; omega)
        fun d hd => hb d (List.mem_of_mem_drop hd)
      have := quoteRune_lit hp x ih
      rw [h1]
      rwa [← h2] at this

theorem hexNum_newline {h : Str} {n : Nat} (hn : HexNum h n) : '\n' ∉ h := by
  induction hn with
  | nil => simp
  | snoc _ hd ih =>
    rename_i s c n d _
    intro hm
    rcases List.mem_append.mp hm with hm | hm
    · exact ih hm
    · rw [List.mem_singleton] at hm
      subst hm
      have := (Json.hexVal_iff '\n' d).mpr hd
      revert this
      simp [hexVal]

theorem goLit_newline {t s : Str} (h : GoLit t s) : '\n' ∉ t := by
  induction h with
  | nil => simp
  | plain _ _ h _ ih => simp [Ne.symm h, ih]
  | @short e n t s he _ ih =>
    have : e ≠ '\n' := by rintro rfl; revert he; simp [goEscapes]
    simp [Ne.symm this, ih]
  | byte _ hh _ ih => simp [hexNum_newline hh, ih]
  | rune _ hh _ ih => simp [hexNum_newline hh, ih]
  | long _ hh _ ih => simp [hexNum_newline hh, ih]

/-! ## Text lines -/

theorem bare_alnum {c : Char} (h : bare c = true) : c.isAlphanum = true ∨ c ∈ ['-', '.', '_', '/', '@', '^', '+'] := by
  unfold bare at h
  simp only [Bool.or_eq_true, decide_eq_true_eq] at h
  rcases h with ((h | h) | h) | h
  · left
    simp only [Char.isAlphanum, Char.isAlpha, Char.isLower, Char.isUpper, Char.isDigit, Bool.or_eq_true, Bool.and_eq_true, decide_eq_true_eq]
    exact .inl (.inr ⟨h.1, h.2⟩)
  · left
    simp only [Char.isAlphanum, Char.isAlpha, Char.isLower, Char.isUpper, Char.isDigit, Bool.or_eq_true, Bool.and_eq_true, decide_eq_true_eq]
    exact .inl (.inl ⟨h.1, h.2⟩)
  · left
    simp only [Char.isAlphanum, Char.isAlpha, Char.isLower, Char.isUpper, Char.isDigit, Bool.or_eq_true, Bool.and_eq_true, decide_eq_true_eq]
    exact .inr ⟨h.1, h.2⟩
  · exact .inr h

theorem textValue_shows {pr : Nat → Bool} (hp : Prints pr) {s : Str} (hb : ∀ c ∈ s, c.toNat < 256) : ShowsValue s (textValue pr s) := by
  unfold textValue
  split
  · rename_i h
    exact .inl ⟨rfl, fun c hc => bare_alnum (List.all_eq_true.mp h c hc)⟩
  · exact .inr ⟨_, rfl, quoteF_lit hp _ _ le_rfl hb⟩

theorem showsValue_newline {v x : Str} (h : ShowsValue v x) : '\n' ∉ x := by
  rcases h with ⟨rfl, h⟩ | ⟨t, rfl, h⟩
  · intro hm
    rcases h _ hm with h | h
    · revert h; decide
    · revert h; decide
  · simp [goLit_newline h]

theorem pairs_ok {pr : Nat → Bool} (hp : Prints pr) : ∀ (ps : List (Str × Str)), ps ≠ [] → (∀ x ∈ ps, ∀ c ∈ x.2, c.toNat < 256) →
    Pairs (spaced (ps.map (textPair pr))) ps
  | [], h, _ => absurd rfl h
  | [x], _, hb => Pairs.one (textValue_shows hp (hb x List.mem_cons_self))
  | x :: y :: l, _, hb => by
    have ih := pairs_ok hp (y :: l) (by simp) fun z hz => hb z (List.mem_cons_of_mem _ hz)
    have := Pairs.cons (k := x.1) (textValue_shows hp (hb x List.mem_cons_self)) ih
    rw [List.map_cons, List.map_cons, spaced.eq_3 _ _ (by simp)]
    unfold textPair at *
    simpa [List.append_assoc] using this

theorem pairs_newline {l : Str} {ps : List (Str × Str)} (h : Pairs l ps) : (∀ x ∈ ps, '\n' ∉ x.1) → '\n' ∉ l := by
  induction h with
  | one hv => intro hk; simp [showsValue_newline hv, hk _ List.mem_cons_self]
  | cons hv _ ih =>
    intro hk
    have := ih fun x hx => hk x (List.mem_cons_of_mem _ hx)
    simp [showsValue_newline hv, hk _ List.mem_cons_self, this]

theorem names_newline : ∀ k ∈ fieldNames ++ ["level".toList, "msg".toList, "time".toList], '\n' ∉ k := by decide +kernel

theorem levelName_bytes (l : Log.Level) : ∀ c ∈ levelName l, c.toNat < 256 := by cases l <;> decide +kernel

theorem text_mem {r : Record} {x : Str × Str} (h : x ∈ textValues r) :
    x = ("time".toList, r.time) ∨ x = ("level".toList, levelName r.level) ∨ x = ("msg".toList, r.msg) ∨ x ∈ r.fields := by
  unfold textValues at h
  rcases List.mem_append.mp h with h | h
  · rcases List.mem_append.mp h with h | h
    · simp only [List.mem_cons, List.not_mem_nil, or_false] at h
      rcases h with h | h
      · exact .inl h
      · exact .inr (.inl h)
    · split at h
      · cases h
      · exact .inr (.inr (.inl (List.mem_singleton.mp h)))
  · exact .inr (.inr (.inr ((sortKeys_perm _).mem_iff.mp h)))

theorem text_pairs {pr : Nat → Bool} (hp : Prints pr) {r : Record} (h : GoodRecord r) :
    Pairs (spaced ((textValues r).map (textPair pr))) (textValues r) := by
  refine pairs_ok hp _ (by simp [textValues]) ?_
  intro x hx
  rcases text_mem hx with rfl | rfl | rfl | hx
  · exact fun c hc => h.1 c (List.mem_append_left _ hc)
  · exact levelName_bytes _
  · exact fun c hc => h.1 c (List.mem_append_right _ hc)
  · exact (h.2.1 x hx).2

theorem text_shows {pr : Nat → Bool} (hp : Prints pr) {r : Record} (h : GoodRecord r) :
    ShowsText r (spaced ((textValues r).map (textPair pr))) :=
  ⟨levelName r.level, sortKeys r.fields, levelName_ok _, sortKeys_perm _, text_pairs hp h⟩

theorem text_newline {pr : Nat → Bool} (hp : Prints pr) {r : Record} (h : GoodRecord r) : '\n' ∉ spaced ((textValues r).map (textPair pr)) := by
  refine pairs_newline (text_pairs hp h) ?_
  intro x hx
  apply names_newline
  rcases text_mem hx with rfl | rfl | rfl | hx
  · simp
  · simp
  · simp
  · exact List.mem_append_left _ (h.2.1 x hx).1

/-! ## Reading a text line back -/

theorem hexNum_det {h : Str} {n : Nat} (hn : HexNum h n) : ∀ {n' : Nat}, HexNum h n' → n = n' := by
  induction hn with
  | nil =>
    intro n' h'
    generalize he : ([] : Str) = x at h'
    cases h' with
    | nil => rfl
    | snoc _ _ => simp at he
  | @snoc s c n d _ hd ih =>
    intro n' h'
    generalize he : s ++ [c] = x at h'
    cases h' with
    | nil => simp at he
    | @snoc s' c' m e h1 h2 =>
      obtain ⟨rfl, h3⟩ := List.append_inj' he rfl
      cases h3
      rw [ih h1]
      have := (Json.hexVal_iff c d).mpr hd
      rw [(Json.hexVal_iff c e).mpr h2] at this
      cases this
      rfl

theorem char_inj {a b : Char} (h : a.toNat = b.toNat) : a = b := Char.ext (UInt32.toNat_inj.mp h)

theorem escape_det {e : Char} {n m : Nat} (h : (e, n) ∈ goEscapes) (h' : (e, m) ∈ goEscapes) : n = m := by
  simp only [goEscapes, List.mem_cons, List.not_mem_nil, or_false, Prod.mk.injEq] at h h'
  rcases h with ⟨rfl, rfl⟩ | ⟨rfl, rfl⟩ | ⟨rfl, rfl⟩ | ⟨rfl, rfl⟩ | ⟨rfl, rfl⟩ | ⟨rfl, rfl⟩ | ⟨rfl, rfl⟩ | ⟨rfl, rfl⟩ | ⟨rfl, rfl⟩ <;>
    · simp at h'; omega

theorem not_escape {e : Char} {n : Nat} (h : (e, n) ∈ goEscapes) : e ≠ 'x' ∧ e ≠ 'u' ∧ e ≠ 'U' := by
  refine ⟨?_, ?_, ?_⟩ <;> rintro rfl <;> simp [goEscapes] at h

/-- A Go string ends at the first quotation mark that is not escaped, and means one thing. -/
theorem goLit_det {t s : Str} (h : GoLit t s) : ∀ {t' s' r r' : Str}, GoLit t' s' → t ++ '"' :: r = t' ++ '"' :: r' →
    t = t' ∧ s = s' ∧ r = r' := by
  induction h with
  | nil =>
    intro t' s' r r' h' e
    cases h' with
    | nil => cases e; exact ⟨rfl, rfl, rfl⟩
    | plain h1 _ _ _ => cases e; exact absurd rfl h1
    | short _ _ => cases e
    | byte _ _ _ => cases e
    | rune _ _ _ => cases e
    | long _ _ _ => cases e
  | plain h1 h2 _ _ ih =>
    intro t' s' r r' h' e
    cases h' with
    | nil => cases e; exact absurd rfl h1
    | plain _ _ _ h4 =>
      rw [List.cons_append, List.cons_append, List.cons.injEq] at e
      obtain ⟨rfl, e⟩ := e
      obtain ⟨rfl, rfl, rfl⟩ := ih h4 e
      exact ⟨rfl, rfl, rfl⟩
    | short _ _ => simp only [List.cons_append, List.cons.injEq] at e; exact absurd e.1 h2
    | byte _ _ _ => simp only [List.cons_append, List.cons.injEq] at e; exact absurd e.1 h2
    | rune _ _ _ => simp only [List.cons_append, List.cons.injEq] at e; exact absurd e.1 h2
    | long _ _ _ => simp only [List.cons_append, List.cons.injEq] at e; exact absurd e.1 h2
  | short hm _ ih =>
    intro t' s' r r' h' e
    cases h' with
    | nil => cases e
    | plain _ h2 _ _ => simp only [List.cons_append, List.cons.injEq] at e; exact absurd e.1.symm h2
    | short hm' h4 =>
      simp only [List.cons_append, List.cons.injEq, true_and] at e
      obtain ⟨rfl, e⟩ := e
      obtain ⟨rfl, rfl, rfl⟩ := ih h4 e
      rw [escape_det hm hm']
      exact ⟨rfl, rfl, rfl⟩
    | byte _ _ _ => simp only [List.cons_append, List.cons.injEq, true_and] at e; exact absurd e.1 (not_escape hm).1
    | rune _ _ _ => simp only [List.cons_append, List.cons.injEq, true_and] at e; exact absurd e.1 (not_escape hm).2.1
    | long _ _ _ => simp only [List.cons_append, List.cons.injEq, true_and] at e; exact absurd e.1 (not_escape hm).2.2
  | byte hl hn _ ih =>
    intro t' s' r r' h' e
    cases h' with
    | nil => cases e
    | plain _ h2 _ _ => simp only [List.cons_append, List.cons.injEq] at e; exact absurd e.1.symm h2
    | short hm' h4 => simp only [List.cons_append, List.cons.injEq, true_and] at e; exact absurd e.1.symm (not_escape hm').1
    | byte hl' hn' h4 =>
      simp only [List.cons_append, List.cons.injEq, true_and, List.append_assoc] at e
      obtain ⟨rfl, e2⟩ := List.append_inj e (hl.trans hl'.symm)
      obtain ⟨rfl, rfl, rfl⟩ := ih h4 e2
      rw [char_inj (hexNum_det hn hn')]
      exact ⟨rfl, rfl, rfl⟩
    | rune _ _ _ => simp at e
    | long _ _ _ => simp at e
  | rune hl hn _ ih =>
    intro t' s' r r' h' e
    cases h' with
    | nil => cases e
    | plain _ h2 _ _ => simp only [List.cons_append, List.cons.injEq] at e; exact absurd e.1.symm h2
    | short hm' h4 => simp only [List.cons_append, List.cons.injEq, true_and] at e; exact absurd e.1.symm (not_escape hm').2.1
    | byte _ _ _ => simp at e
    | rune hl' hn' h4 =>
      simp only [List.cons_append, List.cons.injEq, true_and, List.append_assoc] at e
      obtain ⟨rfl, e2⟩ := List.append_inj e (hl.trans hl'.symm)
      obtain ⟨rfl, rfl, rfl⟩ := ih h4 e2
      rw [char_inj (hexNum_det hn hn')]
      exact ⟨rfl, rfl, rfl⟩
    | long _ _ _ => simp at e
  | long hl hn _ ih =>
    intro t' s' r r' h' e
    cases h' with
    | nil => cases e
    | plain _ h2 _ _ => simp only [List.cons_append, List.cons.injEq] at e; exact absurd e.1.symm h2
    | short hm' h4 => simp only [List.cons_append, List.cons.injEq, true_and] at e; exact absurd e.1.symm (not_escape hm').2.2
    | byte _ _ _ => simp at e
    | rune _ _ _ => simp at e
    | long hl' hn' h4 =>
      simp only [List.cons_append, List.cons.injEq, true_and, List.append_assoc] at e
      obtain ⟨rfl, e2⟩ := List.append_inj e (hl.trans hl'.symm)
      obtain ⟨rfl, rfl, rfl⟩ := ih h4 e2
      rw [char_inj (hexNum_det hn hn')]
      exact ⟨rfl, rfl, rfl⟩

/-- What may follow a value: nothing, or a blank. -/
def Ends (r : Str) : Prop := r = [] ∨ ∃ q, r = ' ' :: q

theorem word_char {v : Str} (h : ∀ c ∈ v, c.isAlphanum = true ∨ c ∈ ['-', '.', '_', '/', '@', '^', '+']) : ' ' ∉ v ∧ '"' ∉ v := by
  constructor <;> intro hm <;> rcases h _ hm with h | h <;> revert h <;> decide

theorem word_det : ∀ {v v' r r' : Str}, ' ' ∉ v → ' ' ∉ v' → Ends r → Ends r' → v ++ r = v' ++ r' → v = v' ∧ r = r'
  | [], [], _, _, _, _, _, _, e => ⟨rfl, e⟩
  | [], c :: v', r, r', _, h', hr, _, e => by
    rcases hr with rfl | ⟨q, rfl⟩
    · simp at e
    · rw [List.nil_append, List.cons_append, List.cons.injEq] at e
      exact absurd (e.1 ▸ List.mem_cons_self) h'
  | c :: v, [], r, r', h, _, _, hr, e => by
    rcases hr with rfl | ⟨q, rfl⟩
    · simp at e
    · rw [List.nil_append, List.cons_append, List.cons.injEq] at e
      exact absurd (e.1 ▸ List.mem_cons_self) h
  | c :: v, d :: v', r, r', h, h', hr, hr', e => by
    rw [List.cons_append, List.cons_append, List.cons.injEq] at e
    obtain ⟨rfl, e⟩ := e
    obtain ⟨rfl, rfl⟩ := word_det (fun hm => h (List.mem_cons_of_mem _ hm)) (fun hm => h' (List.mem_cons_of_mem _ hm)) hr hr' e
    exact ⟨rfl, rfl⟩

/-- A value in a text line has one end and means one thing. -/
theorem value_det {v v' x x' r r' : Str} (h : ShowsValue v x) (h' : ShowsValue v' x') (hr : Ends r) (hr' : Ends r')
    (e : x ++ r = x' ++ r') : v = v' ∧ r = r' := by
  have quote : ∀ {w t q q' : Str}, '"' ∉ w → Ends q → w ++ q = '"' :: (t ++ ['"']) ++ q' → False := by
    intro w t q q' hw hq e
    cases w with
    | nil =>
      rcases hq with rfl | ⟨p, rfl⟩
      · simp at e
      · simp at e
    | cons c w =>
      rw [List.cons_append, List.cons_append, List.cons.injEq] at e
      exact hw (e.1 ▸ List.mem_cons_self)
  rcases h with ⟨rfl, h⟩ | ⟨t, rfl, h⟩ <;> rcases h' with ⟨rfl, h'⟩ | ⟨t', rfl, h'⟩
  · exact word_det (word_char h).1 (word_char h').1 hr hr' e
  · exact (quote (word_char h).2 hr e).elim
  · exact (quote (word_char h').2 hr' e.symm).elim
  · have e' : t ++ '"' :: r = t' ++ '"' :: r' := by simpa using e
    obtain ⟨-, h2, h3⟩ := goLit_det h h' e'
    exact ⟨h2, h3⟩

/-- Two readings of a line that begin with the same name give it the same value. -/
theorem pairs_head {l k v v' : Str} {ps ps' : List (Str × Str)} (h : Pairs l ((k, v) :: ps)) (h' : Pairs l ((k, v') :: ps')) :
    v = v' ∧ ((ps = [] ∧ ps' = []) ∨ ∃ l', Pairs l' ps ∧ Pairs l' ps') := by
  generalize hq : (k, v) :: ps = q at h
  generalize hq' : (k, v') :: ps' = q' at h'
  cases h with
  | one hv =>
    cases hq
    generalize hl : _ ++ '=' :: _ = l at h'
    cases h' with
    | one hv' =>
      cases hq'
      have e := List.append_cancel_left hl
      rw [List.cons.injEq] at e
      have := value_det hv hv' (.inl rfl) (.inl rfl) (by rw [List.append_nil, List.append_nil]; exact e.2)
      exact ⟨this.1, .inl ⟨rfl, rfl⟩⟩
    | cons hv' hp' =>
      cases hq'
      have e := List.append_cancel_left hl
      rw [List.cons.injEq] at e
      have := value_det hv hv' (.inl rfl) (.inr ⟨_, rfl⟩) (by rw [List.append_nil]; exact e.2)
      exact absurd this.2 (by simp)
  | cons hv hp =>
    cases hq
    generalize hl : _ ++ '=' :: _ = l at h'
    cases h' with
    | one hv' =>
      cases hq'
      have e := List.append_cancel_left hl
      rw [List.cons.injEq] at e
      have := value_det hv hv' (.inr ⟨_, rfl⟩) (.inl rfl) (by rw [List.append_nil]; exact e.2)
      exact absurd this.2 (by simp)
    | cons hv' hp' =>
      cases hq'
      have e := List.append_cancel_left hl
      rw [List.cons.injEq] at e
      have := value_det hv hv' (.inr ⟨_, rfl⟩) (.inr ⟨_, rfl⟩) e.2
      rw [List.cons.injEq] at this
      obtain ⟨h1, -, rfl⟩ := this
      exact ⟨h1, .inr ⟨_, hp, hp'⟩⟩

theorem lines_count {out : Str} {ls : List Str} (h : Lines out ls) : out.count '\n' = ls.length := by
  obtain ⟨rfl, h⟩ := h
  induction ls with
  | nil => rfl
  | cons l ls ih =>
    rw [List.flatMap_cons, List.count_append, List.count_append, ih fun x hx => h x (List.mem_cons_of_mem _ hx),
      List.count_eq_zero.mpr (h l List.mem_cons_self)]
    simp
    omega

end OM.LogL
