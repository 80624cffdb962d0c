import Verif.Lemmas.LogLines
import Mathlib.Data.List.Forall2
/-!
# Property C152: every record of the log is one line, and clients cannot fake any
-/
namespace OM.Props
open OM.Spec OM.LogL

/-- What the log should be in every format: a line for each record. -/
def C152_statement : Prop :=
  ∀ (pr : Nat → Bool) (st : Style) (rs : List Record), Prints pr → (∀ r ∈ rs, GoodRecord r) →
    ∃ ls, Lines (log pr st rs) ls ∧ ls.length = rs.length

private theorem lines_of {f : Record → Str} {P : Record → Str → Prop} {rs : List Record} (h : ∀ r ∈ rs, P r (f r) ∧ '\n' ∉ f r) :
    ∃ ls, Lines (rs.flatMap fun r => f r ++ ['\n']) ls ∧ List.Forall₂ P rs ls := by
  refine ⟨rs.map f, ⟨by rw [List.flatMap_map], ?_⟩, ?_⟩
  · intro l hl
    obtain ⟨r, hr, rfl⟩ := List.mem_map.mp hl
    exact (h r hr).2
  · rw [List.forall₂_map_right_iff, List.forall₂_same]
    exact fun r hr => (h r hr).1

/-- **C152 (JSON, the default).** Partial: the full claim is `C152_statement`.  Whatever bytes clients,
functions or Redis put into messages and fields: the log has one line for each record, in order, and the
line is a JSON object with exactly the level, message, time and fields of the record. -/
theorem C152_json_partial (pr : Nat → Bool) (rs : List Record) (h : ∀ r ∈ rs, GoodRecord r) :
    ∃ ls, Lines (log pr .json rs) ls ∧ List.Forall₂ ShowsJson rs ls :=
  lines_of (f := fun r => Json.write true [] (.obj (members r))) fun r hr => ⟨json_shows (h r hr), json_newline (h r hr)⟩

/-- **C152 (text, not on a terminal).** The same: one line for each record, with its time, level, message
and fields in words or Go strings. -/
theorem C152_text_partial (pr : Nat → Bool) (hp : Prints pr) (rs : List Record) (h : ∀ r ∈ rs, GoodRecord r) :
    ∃ ls, Lines (log pr .text rs) ls ∧ List.Forall₂ ShowsText rs ls :=
  lines_of (f := fun r => spaced ((textValues r).map (textPair pr))) fun r hr => ⟨text_shows hp (h r hr), text_newline hp (h r hr)⟩

private def sample : Record :=
  ⟨.warn, "2024-01-01T00:00:00Z".toList, idText "x\nlevel=error msg=\"y".toList, createFields⟩

private theorem sample_good : GoodRecord sample := by
  refine ⟨by decide +kernel, by decide +kernel, by decide +kernel⟩

example : GoodRecord sample ∧ Prints (fun n => decide (32 ≤ n ∧ n < 127)) :=
  ⟨sample_good, fun n hn => by simp; omega⟩
example : textLine (fun n => decide (32 ≤ n ∧ n < 127)) ⟨.info, "now".toList, "a \"b\"\nc".toList, [("rpc".toList, "R".toList), ("app".toList, [])]⟩ =
    "time=now level=info msg=\"a \\\"b\\\"\\nc\" app= rpc=R\n".toList := by decide +kernel
example : jsonLine ⟨.info, "now".toList, "a<\nb".toList, [("rpc".toList, "R".toList), ("app".toList, [])]⟩ =
    "{\"app\":\"\",\"level\":\"info\",\"msg\":\"a\\u003c\\nb\",\"rpc\":\"R\",\"time\":\"now\"}\n".toList := by decide +kernel

/-! ## Nobody is misled -/

private theorem level_inj {a b : Log.Level} (h : levelName a = levelName b) : a = b := by
  revert h; cases a <;> cases b <;> simp [levelName]

private theorem name_text (l : Log.Level) : IsText (levelName l) := (Wire.utf8Valid_iff _).mp (by cases l <;> decide +kernel)

/-- **C152 (JSON, unambiguous).** A line tells one level, one time and one message. -/
theorem C152_json_unambiguous (r r' : Record) (l : Str) (h : ShowsJson r l) (h' : ShowsJson r' l) :
    r.level = r'.level ∧ (IsText r.msg → IsText r'.msg → r.msg = r'.msg) ∧ (IsText r.time → IsText r'.time → r.time = r'.time) := by
  obtain ⟨ms, hd, hn, hm, -⟩ := h
  obtain ⟨ms', hd', -, hm', -⟩ := h'
  have he : (Json.obj ms) = .obj ms' := by
    have h1 := (Json.read_iff _ _).mpr hd
    rw [(Json.read_iff _ _).mpr hd'] at h1
    exact (Option.some.inj h1).symm
  cases he
  have uniq : ∀ k v w, IsText v → IsText w → Says1 r k v → Says1 r' k w → v = w := by
    intro k v w hv hw h1 h2
    obtain ⟨v', a1, a2⟩ := hm k v h1
    obtain ⟨w', b1, b2⟩ := hm' k w h2
    rw [Err.repaired_of_text a1 hv] at a2
    rw [Err.repaired_of_text b1 hw] at b2
    have := List.inj_on_of_nodup_map hn a2 b2 rfl
    simpa using this
  exact ⟨level_inj (uniq _ _ _ (name_text _) (name_text _) (.level (levelName_ok _)) (.level (levelName_ok _))),
    fun a b => uniq _ _ _ a b .msg .msg, fun a b => uniq _ _ _ a b .time .time⟩

/-- **C152 (text, unambiguous).** A line tells one time and one level; and if both records have a
message, one message. -/
theorem C152_text_unambiguous (r r' : Record) (l : Str) (h : ShowsText r l) (h' : ShowsText r' l) :
    r.time = r'.time ∧ r.level = r'.level ∧ (r.msg ≠ [] → r'.msg ≠ [] → r.msg = r'.msg) := by
  obtain ⟨s, fs, hs, -, hp⟩ := h
  obtain ⟨s', fs', hs', -, hp'⟩ := h'
  rw [List.append_assoc, List.cons_append] at hp hp'
  obtain ⟨h1, h2⟩ := pairs_head hp hp'
  rcases h2 with ⟨h2, -⟩ | ⟨l2, hp, hp'⟩
  · simp at h2
  rw [List.cons_append] at hp hp'
  obtain ⟨h3, h4⟩ := pairs_head hp hp'
  refine ⟨h1, level_inj ((levelName_unique hs).symm.trans (h3.trans (levelName_unique hs'))), ?_⟩
  intro hm hm'
  rw [if_neg hm, if_neg hm'] at h4
  rcases h4 with ⟨h4, -⟩ | ⟨l3, hp, hp'⟩
  · simp at h4
  · exact (pairs_head hp hp').1

example : ShowsText sample (spaced ((textValues sample).map (textPair fun n => decide (32 ≤ n ∧ n < 127)))) :=
  text_shows (fun n hn => by simp; omega) sample_good

/-! ## On a terminal -/

/-- **C152, refuted**: on a terminal the text format writes messages as they are; the id that a client
gives a ticket can begin a line of its own. -/
theorem C152_one_line_refuted : ¬ C152_statement := by
  intro h
  obtain ⟨ls, h1, h2⟩ := h (fun n => decide (32 ≤ n ∧ n < 127)) (.terminal 0) [sample] (fun n hn => by simp; omega)
    (by intro r hr; rw [List.mem_singleton.mp hr]; exact sample_good)
  have h3 := lines_count h1
  rw [h2] at h3
  revert h3
  decide +kernel

private theorem color_ok (l : Log.Level) : '\n' ∉ color l ∧ '\n' ∉ (Log.upperAscii (levelName l)).take 4 := by
  cases l <;> decide +kernel

private theorem digits_ok (n : Nat) : '\n' ∉ fmtNat n := fun h => by
  have := isDigit_fmtNat h
  revert this; decide

private theorem trim_iff (s : Str) : '\n' ∉ trimNewline s ↔ ∃ m, (s = m ∨ s = m ++ ['\n']) ∧ '\n' ∉ m := by
  unfold trimNewline
  constructor
  · intro h
    split at h
    · rename_i hl
      obtain ⟨p, rfl⟩ := List.getLast?_eq_some_iff.mp hl
      rw [List.dropLast_concat] at h
      exact ⟨p, .inr rfl, h⟩
    · exact ⟨s, .inl rfl, h⟩
  · rintro ⟨m, rfl | rfl, hm⟩
    · split
      · exact fun h => hm (List.dropLast_subset _ h)
      · exact hm
    · rw [List.getLast?_concat, if_pos rfl, List.dropLast_concat]
      exact hm

/-- **C152 (terminal), exactly.** Partial: the full claim is `C152_statement`.  On a terminal a record is
one line exactly if its message has no newline but perhaps one at its end. -/
theorem C152_terminal_partial (pr : Nat → Bool) (hp : Prints pr) (n : Nat) (r : Record) (h : GoodRecord r) :
    (∃ l, Lines (log pr (.terminal n) [r]) [l]) ↔ ∃ m, (r.msg = m ∨ r.msg = m ++ ['\n']) ∧ '\n' ∉ m := by
  rw [← trim_iff]
  have hf : '\n' ∉ (sortKeys r.fields).flatMap
      (fun x => ' ' :: esc (color r.level) ++ x.1 ++ esc ['0'] ++ '=' :: textValue pr x.2) := by
    intro hm
    obtain ⟨x, hx, hm⟩ := List.mem_flatMap.mp hm
    have hx := h.2.1 x ((sortKeys_perm _).mem_iff.mp hx)
    have h1 := names_newline x.1 (List.mem_append_left _ hx.1)
    have h2 := showsValue_newline (textValue_shows hp hx.2)
    simp [esc, (color_ok r.level).1, h1, h2] at hm
  have he : log pr (.terminal n) [r] = (esc (color r.level) ++ (Log.upperAscii (levelName r.level)).take 4 ++ esc ['0'] ++
      '[' :: (List.replicate (4 - (fmtNat n).length) '0' ++ fmtNat n) ++ ']' :: ' ' :: pad44 (trimNewline r.msg) ++ [' '] ++
      (sortKeys r.fields).flatMap (fun x => ' ' :: esc (color r.level) ++ x.1 ++ esc ['0'] ++ '=' :: textValue pr x.2)) ++ ['\n'] := by
    simp [log, line, terminalLine]
  constructor
  · rintro ⟨l, h1, h2⟩ hm
    rw [he, List.flatMap_cons, List.flatMap_nil, List.append_nil] at h1
    have h3 := List.append_cancel_right h1
    apply h2 l List.mem_cons_self
    rw [← h3]
    simp [pad44, hm]
  · intro hm
    refine ⟨_, by rw [he, List.flatMap_cons, List.flatMap_nil, List.append_nil], ?_⟩
    intro l hl
    rw [List.mem_singleton.mp hl]
    generalize (sortKeys r.fields).flatMap _ = q at hf
    have e1 : '\n' ≠ Char.ofNat 27 := by decide
    simp only [esc, pad44, List.mem_append, List.mem_cons, List.mem_replicate, List.not_mem_nil, or_false, hm, hf, (color_ok r.level).1,
      (color_ok r.level).2, digits_ok n, e1, false_or]
    simp

example : '\n' ∉ "ready".toList ∧ GoodRecord ⟨.info, [], "ready\n".toList, []⟩ := by
  refine ⟨by decide +kernel, by decide +kernel, by decide +kernel, by decide +kernel⟩

/-! ## What clients of `CreateTicket` can do to the log -/

private theorem create_lines (pr : Nat → Bool) (t : Str) (cfg : Config) (now : Int) (tk : Ticket)
    (ht : ∀ c ∈ t, c.toNat < 256) (hid : ∀ c ∈ tk.id, c.toNat < 256) :
    ∃ ls, Lines (log pr .json (printed .info (createRecords t cfg now (some tk)))) ls ∧
      List.Forall₂ (fun (want : Log.Level × Str) l => ShowsJson ⟨want.1, t, want.2, createFields⟩ l)
        ((if tk.id ≠ [] then [(Log.Level.warn, idText tk.id)] else []) ++
          (if Timestamp.isValid tk.creationTime then []
            else [(Log.Level.info, "CreationTime provided is invalid or nil; replacing with current time".toList)])) ls := by
  have fields : (∀ x ∈ createFields, x.1 ∈ fieldNames ∧ ∀ c ∈ x.2, c.toNat < 256) ∧ (createFields.map (·.1)).Nodup := by
    constructor <;> decide +kernel
  have b1 : ∀ c ∈ "CreateTicket request included a ticketid (".toList, c.toNat < 256 := by decide +kernel
  have b2 : ∀ c ∈ "). Open Match assigns Ticket IDs, so this value will be overwritten. See documentation for more details.".toList,
      c.toNat < 256 := by decide +kernel
  have b3 : ∀ c ∈ "CreationTime provided is invalid or nil; replacing with current time".toList, c.toNat < 256 := by decide +kernel
  have e : printed .info (createRecords t cfg now (some tk)) =
      (((if tk.id ≠ [] then [(Log.Level.warn, idText tk.id)] else []) ++
          (if Timestamp.isValid tk.creationTime then []
            else [(Log.Level.info, "CreationTime provided is invalid or nil; replacing with current time".toList)])).map
        fun w => (⟨w.1, t, w.2, createFields⟩ : Record)) := by
    unfold printed createRecords
    rw [List.filter_append, List.filter_append, List.map_append]
    rw [show ∀ a b c : List Record, c = [] → a ++ b ++ c = a ++ b from fun a b c h => by rw [h, List.append_nil]]
    · congr 1
      · by_cases h : tk.id = [] <;> simp [h, rank]
      · by_cases h : Timestamp.isValid tk.creationTime = true <;> simp [h, rank]
    · split <;> simp [rank]
  rw [e]
  obtain ⟨ls, h1, h2⟩ := C152_json_partial pr ((((if tk.id ≠ [] then [(Log.Level.warn, idText tk.id)] else []) ++
          (if Timestamp.isValid tk.creationTime then []
            else [(Log.Level.info, "CreationTime provided is invalid or nil; replacing with current time".toList)])).map
        fun w => (⟨w.1, t, w.2, createFields⟩ : Record))) (by
      intro r hr
      obtain ⟨w, hw, rfl⟩ := List.mem_map.mp hr
      refine ⟨?_, fields.1, fields.2⟩
      intro c hc
      rcases List.mem_append.mp hc with hc | hc
      · exact ht c hc
      have hw' : w = (.warn, idText tk.id) ∨
          w = (Log.Level.info, "CreationTime provided is invalid or nil; replacing with current time".toList) := by
        rcases List.mem_append.mp hw with hw | hw
        · split at hw
          · exact .inl (List.mem_singleton.mp hw)
          · cases hw
        · split at hw
          · cases hw
          · exact .inr (List.mem_singleton.mp hw)
      rcases hw' with rfl | rfl
      · unfold idText at hc
        rcases List.mem_append.mp hc with hc | hc
        · rcases List.mem_append.mp hc with hc | hc
          · exact b1 c hc
          · exact hid c hc
        · exact b2 c hc
      · exact b3 c hc)
  refine ⟨ls, h1, ?_⟩
  rwa [List.forall₂_map_left_iff] at h2

/-- **C152 (CreateTicket).** With the default format and level: whatever ticket a client sends, the call
adds exactly one warning, which quotes the client's id, if there is one, one remark if the creation time
is missing or not valid, and no other line. -/
theorem C152_create_ticket (pr : Nat → Bool) (t : Str) (cfg : Config) (now : Int) (tk : Ticket)
    (ht : ∀ c ∈ t, c.toNat < 256) (hid : ∀ c ∈ tk.id, c.toNat < 256) :
    ∃ ls, Lines (log pr .json (printed .info (createRecords t cfg now (some tk)))) ls ∧
      List.Forall₂ (fun (want : Log.Level × Str) l => ShowsJson ⟨want.1, t, want.2,
          [("app".toList, "open_match".toList), ("component".toList, "core".toList), ("stage".toList, "handling".toList),
           ("rpc".toList, "CreateTicket".toList)]⟩ l)
        ((if tk.id ≠ [] then
            [(Log.Level.warn, "CreateTicket request included a ticketid (".toList ++ tk.id ++
              "). Open Match assigns Ticket IDs, so this value will be overwritten. See documentation for more details.".toList)]
          else []) ++
          (if Timestamp.isValid tk.creationTime then []
            else [(Log.Level.info, "CreationTime provided is invalid or nil; replacing with current time".toList)])) ls := by
  have h := create_lines pr t cfg now tk ht hid
  unfold idText createFields at h
  exact h

/-- A ticket without attributes and with an id that tries to begin a new line. -/
example : createRecords [] Config.default 0 (some ⟨"a\nb".toList, none, none, []⟩) =
    [⟨.warn, [], idText "a\nb".toList, createFields⟩,
     ⟨.info, [], "CreationTime provided is invalid or nil; replacing with current time".toList, createFields⟩,
     ⟨.debug, [], "ExpirationTime provided is invalid or nil; replacing with current time + OM_CACHE_TICKET_TTL_SECS (600)".toList,
       createFields⟩] := by rfl

end OM.Props
