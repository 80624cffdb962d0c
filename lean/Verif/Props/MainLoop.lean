import Verif.Model.MainLoop
import Verif.Props.Frontend
import Verif.Props.Example
import Verif.Props.Listen
/-!
# Properties C113 to C115: the example's main loop
-/
namespace OM.Props
open OM.Spec OM.PJ

/-! ## C113: which om-core the example talks to -/

/-- The full claim: the example talks to the om-core that -omhost names. -/
def C113_statement : Prop := ∀ f : Loop.Flags, f.target = f.omhost

/-- **C113, refuted**: over HTTP, which is the default, -omhost is not looked at. -/
theorem C113_omhost_refuted : ¬ C113_statement := by
  intro h
  have := h { Loop.Flags.default with omhost := "om.example.com:80".toList }
  exact absurd this (by decide +kernel)

/-- **C113, exactly.** Partial: the full claim is `C113_statement`.  With -conn=grpc, and with no other text,
-omhost is used; otherwise every call goes to port 58081 of the same machine. -/
theorem C113_target_partial (f : Loop.Flags) :
    (f.conn = "grpc".toList → f.target = f.omhost) ∧ (f.conn ≠ "grpc".toList → f.target = "localhost:58081".toList) := by
  unfold Loop.Flags.target Loop.Flags.isGrpc
  exact ⟨fun h => by rw [if_pos (decide_eq_true h)], fun h => by rw [if_neg (by simpa using h)]⟩

/-- **C113 (defaults).** Where nothing is configured on either side, and the ports are free, the example finds
om-core on the same machine with either type of connection. -/
theorem C113_defaults (resolve : Str → Option Nat) (hres : ReadsPorts resolve) (free : Nat → Bool) (picked : Nat)
    (o : List Conf.Binder) (ho : Order o) (hf : free 8080 = true) (hf' : free 58081 = true) (conn : Str) :
    ∃ l, Conf.serveApi resolve free picked o [] = some l ∧ RestWorks l ∧
      { Loop.Flags.default with conn := conn }.target =
        "localhost:".toList ++ fmtNat (if conn = "grpc".toList then l.grpc else l.http) := by
  have hp : Says [] "PORT".toList 8080 := by
    refine .inr ⟨?_, ?_⟩
    · exact .inl rfl
    · decide +kernel
  obtain ⟨l, hl, h1, h2, h3, -⟩ :=
    C106_served_where_configured_partial resolve hres free picked o ho [] 8080 hp (by decide) (by decide) (by decide) (by decide) (by decide) hf hf'
  refine ⟨l, hl, h3, ?_⟩
  by_cases hc : conn = "grpc".toList
  · rw [if_pos hc, (C113_target_partial _).1 hc, h1]
    exact (by decide +kernel : Loop.Flags.default.omhost = "localhost:".toList ++ fmtNat 8080)
  · rw [if_neg hc, (C113_target_partial _).2 hc, h2]
    decide +kernel

/-! ## C114: what the example makes of om-core's answers -/

/-- The matches that om-core sent. -/
def sentMatches : Loop.Served → List (Option Match)
  | .streamed ms _ => ms
  | _ => []

/-- What the gateway makes of om-core's answer: a status other than 200 for an error before the first match,
otherwise 200 and a line for each match, and one for the error if there is one. -/
inductive OverRest (e : Env) : Loop.Served → Loop.Invoked → Prop
  | unreachable : OverRest e .unreachable (.rest none)
  | refused {s : Front.Status} {status : Nat} {body : Str} : status ≠ 200 → OverRest e (.refused s) (.rest (some (status, body)))
  | streamed {ms : List (Option Match)} {err : Option Front.Status} {body : Str} : (err ≠ none → ms ≠ []) →
      body.flatMap charBytes = Loop.bodyBytes e ms err → OverRest e (.streamed ms err) (.rest (some (200, body)))

/-- The full claim: whatever om-core does with the call, and with either type of connection, the example goes
on, with exactly the matches that om-core sent. -/
def C114_statement : Prop := ∀ (e : Env) (junk : Str → Option Match) (s : Loop.Served) (r : Loop.Invoked), EnvOk e →
  (r = Loop.overGrpc s ∨ OverRest e s r) → Loop.received e junk r = some (sentMatches s)

/-- **C114, refuted**: without om-core the example ends at once: over REST it dereferences a nil response. -/
theorem C114_goes_on_refuted : ¬ C114_statement := fun h =>
  absurd (h sampleEnv (fun _ => none) .unreachable (.rest none) sampleEnv_ok (.inr .unreachable)) (by simp [Loop.received])

theorem envelope_bytes (cs : List Str) :
    (cs.map fun c => c.flatMap charBytes).flatMap Mm.envelope = (cs.flatMap Mm.envelope).flatMap charBytes := by
  have hp : Mm.resultPrefix.flatMap charBytes = Mm.resultPrefix := Json.flatMap_ascii _ (by decide)
  have hq : ['}', '\n'].flatMap charBytes = ['}', '\n'] := Json.flatMap_ascii _ (by decide)
  induction cs with
  | nil => rfl
  | cons c cs ih =>
    rw [List.map_cons, List.flatMap_cons, List.flatMap_cons, List.flatMap_append, ih]
    simp only [Mm.envelope, List.flatMap_append, hp, hq]

/-- The line for an error: between the braces a text without a newline, with white space if the message has. -/
theorem errLine_text (s : Front.Status) (hs : IsText s.msg) :
    ∃ r : Str, Loop.errLine s = ("{\"error\":{\"".toList ++ r ++ ['}', '}']).flatMap charBytes ∧ '\n' ∉ r ∧ ((∃ c ∈ r, White c) ↔ Blank s.msg) := by
  obtain ⟨neg, i, hn, -⟩ := number_fmtInt (s.code : Int)
  have hnum : Json.Line (Json.write true [] (.num (fmtInt s.code))) (∃ t ∈ strings (.num (fmtInt s.code)), Blank t) :=
    Json.write_line _ ⟨neg, i, [], 0, hn⟩ rfl
  have hstr := Json.writeStr_line ((Wire.utf8Valid_iff s.msg).mpr hs)
  have lit : ∀ t : Str, (∀ c ∈ t, 0x20 < c.toNat ∧ c.toNat < 0x80) → Json.Line t False := fun t h => Json.line_ascii h
  have h := Json.line_append (lit "code\":".toList (by decide +kernel))
    (Json.line_append hnum (Json.line_append (lit ",\"message\":".toList (by decide +kernel))
      (Json.line_append hstr (lit ",\"details\":[]".toList (by decide +kernel)))))
  obtain ⟨r, hr, hn1, hw⟩ := h
  refine ⟨r, ?_, hn1, hw.trans (by simp [strings])⟩
  rw [List.flatMap_append, List.flatMap_append, ← hr, Json.flatMap_ascii _ (by decide +kernel), Json.flatMap_ascii ['}', '}'] (by decide)]
  show Json.write true [] (.obj [("error".toList, Front.statusJson s)]) = _
  have e1 : Json.writeStr true ['e', 'r', 'r', 'o', 'r'] = ['"', 'e', 'r', 'r', 'o', 'r', '"'] := by decide +kernel
  have e2 : Json.writeStr true ['c', 'o', 'd', 'e'] = ['"', 'c', 'o', 'd', 'e', '"'] := by decide +kernel
  have e3 : Json.writeStr true ['m', 'e', 's', 's', 'a', 'g', 'e'] = ['"', 'm', 'e', 's', 's', 'a', 'g', 'e', '"'] := by decide +kernel
  have e4 : Json.writeStr true ['d', 'e', 't', 'a', 'i', 'l', 's'] = ['"', 'd', 'e', 't', 'a', 'i', 'l', 's', '"'] := by decide +kernel
  simp [Json.write, Json.writeMembers, Json.writeElems, Front.statusJson, e1, e2, e3, e4]

/-- A text that starts with a quote does not hold a message. -/
theorem quote_unread {e : Env} (t : Str) : unmarshal (asMmfResponse e) ('"' :: t) = none := by
  cases hu : unmarshal (asMmfResponse e) ('"' :: t) with
  | none => rfl
  | some v =>
    obtain ⟨j, ⟨-, w, x, w', he, hw, hx, -⟩, ms, rfl, -⟩ := (unmarshal_iff (asMmfResponse_iff e) _ v).mp hu
    have hw0 : w = [] := by
      cases w with
      | nil => rfl
      | cons c w =>
        rw [List.cons_append] at he
        have := hw c (by simp)
        rw [← (List.cons.inj he).1] at this
        exact absurd this (by decide)
    subst hw0
    cases hx <;> exact absurd (List.cons.inj he).1 (by decide)

theorem appendRunes (t : Str) : (t.flatMap fun c => Json.appendRune c.toNat) = t.flatMap charBytes :=
  congrArg (fun f => t.flatMap f) (funext Json.appendRune_charBytes)

theorem all_word (x : Str) (h : ∀ c ∈ x, Mm.isSpace c = false) :
    x.takeWhile (fun c => !Mm.isSpace c) = x ∧ x.dropWhile (fun c => !Mm.isSpace c) = [] := by
  induction x with
  | nil => exact ⟨rfl, rfl⟩
  | cons c x ih =>
    obtain ⟨h1, h2⟩ := ih fun d hd => h d (List.mem_cons_of_mem _ hd)
    simp [List.takeWhile, List.dropWhile, h c (by simp), h1, h2]

/-- The last line, if it has no white space. -/
theorem read_last {x : Str} (hx : ∀ c ∈ x, Mm.isSpace c = false) (hl : 11 ≤ x.length) :
    Mm.readStream (x.length + 1) x = some [(x.drop 10).take (x.length - 11)] := by
  have h0 : x ≠ [] := by rintro rfl; simp at hl
  obtain ⟨c, r, rfl⟩ := List.exists_cons_of_ne_nil h0
  have hc := hx c (by simp)
  have hsk : Mm.skipBlanks (c :: r) = some (c :: r) := by
    rw [Mm.skipBlanks, if_neg (by rintro rfl; exact absurd hc (by decide)), if_neg (by rw [hc]; decide)]
  have ht : (c :: r).takeWhile (fun c => !Mm.isSpace c) = c :: r := (all_word _ hx).1
  have hd : (c :: r).dropWhile (fun c => !Mm.isSpace c) = [] := (all_word _ hx).2
  have hf : Mm.fscanf (c :: r) = .word (c :: r) [] := by
    unfold Mm.fscanf
    rw [hsk]
    dsimp only
    rw [ht, hd]
    rfl
  rw [Mm.readStream, hf]
  simp only [Mm.trim, if_pos hl, Option.bind_some]
  rfl

/-- Lines without white space, and then something else. -/
theorem read_lines (cs : List Str) (h : ∀ c ∈ cs, ∀ x ∈ c, Mm.isSpace x = false) (x : Str) (ts : List Str) (n : Nat)
    (hx : Mm.readStream n x = some ts) : Mm.readStream (n + cs.length) (cs.flatMap Mm.envelope ++ x) = some (cs ++ ts) := by
  induction cs with
  | nil => exact hx
  | cons c cs ih =>
    rw [List.flatMap_cons, List.append_assoc, List.length_cons, ← Nat.add_assoc, Mm.readStream, fscanf_envelope _ _ (h c (by simp))]
    dsimp only
    rw [trim_envelope, Option.bind_some, ih fun d hd => h d (List.mem_cons_of_mem _ hd)]
    rfl

/-- Lines with white space in one of them cannot be read. -/
theorem read_white (cs : List Str) (hn : ∀ c ∈ cs, '\n' ∉ c) (hw : ∃ c ∈ cs, ∃ x ∈ c, White x) (y : Str) :
    ∀ n, Mm.readStream n (cs.flatMap Mm.envelope ++ y) = none := by
  induction cs with
  | nil => obtain ⟨c, hc, -⟩ := hw; cases hc
  | cons c cs ih =>
    intro n
    cases n with
    | zero => rfl
    | succ n =>
      rw [List.flatMap_cons, List.append_assoc, Mm.readStream]
      by_cases hc : ∀ d ∈ c, Mm.isSpace d = false
      · have hw' : ∃ c ∈ cs, ∃ x ∈ c, White x := by
          obtain ⟨d, hd, x, hx, hxw⟩ := hw
          rcases List.mem_cons.1 hd with rfl | hd
          · exact absurd ((isSpace_iff x).mpr hxw) (by rw [hc x hx]; decide)
          · exact ⟨d, hd, x, hx, hxw⟩
        rw [fscanf_envelope _ _ hc]
        dsimp only
        rw [ih (fun d hd => hn d (List.mem_cons_of_mem _ hd)) hw' n]
        cases Mm.trim (Mm.resultPrefix ++ c ++ ['}']) <;> rfl
      · rw [fscanf_blank c _ (hn c (by simp))]
        simp only [not_forall] at hc
        obtain ⟨d, hd, hs⟩ := hc
        exact ⟨d, hd, by simpa using hs⟩

/-- More rounds than needed do not matter. -/
theorem read_more {n : Nat} : ∀ {x : Str} {ts : List Str} {m : Nat}, Mm.readStream n x = some ts → n ≤ m → Mm.readStream m x = some ts := by
  induction n with
  | zero => intro x ts m h; cases h
  | succ n ih =>
    intro x ts m h hm
    obtain ⟨m, rfl⟩ : ∃ k, m = k + 1 := ⟨m - 1, by omega⟩
    rw [Mm.readStream] at h ⊢
    cases hf : Mm.fscanf x with
    | eof => rw [hf] at h; exact h
    | err => rw [hf] at h; cases h
    | word w r =>
      rw [hf] at h
      dsimp only at h ⊢
      cases ht : Mm.trim w with
      | none => rw [ht] at h; cases h
      | some t =>
        rw [ht] at h
        simp only [Option.bind_some, Option.map_eq_some_iff] at h ⊢
        obtain ⟨us, hu, rfl⟩ := h
        exact ⟨us, ih hu (by omega), rfl⟩

/-- **C114, exactly.** Partial: the full claim is `C114_statement`.  Over gRPC the example gets the matches that
om-core sent and goes on, unless there is no om-core: then it exits.  Over REST it ends if there is no om-core,
if om-core refuses the call, and if a string of a match, or the message of the error that ends the stream, has
a blank in it; without those it gets the matches, and an error that ends the stream counts as one more match,
an empty one. -/
theorem C114_exactly_partial {e : Env} (he : EnvOk e) (junk : Str → Option Match) (hj : ∀ t, junk ('"' :: t) = none) :
    (∀ s, (s ≠ .unreachable → Loop.received e junk (Loop.overGrpc s) = some (sentMatches s)) ∧
      (s = .unreachable → Loop.received e junk (Loop.overGrpc s) = none)) ∧
    (∀ r, OverRest e .unreachable r → Loop.received e junk r = none) ∧
    (∀ s r, OverRest e (.refused s) r → Loop.received e junk r = none) ∧
    (∀ ms err r, OverRest e (.streamed ms err) r → (∀ m ∈ ms, OptAll (MatchOk e) m) → (∀ m ∈ ms, OptAll (MatchGo e) m) →
      (∀ s, err = some s → IsText s.msg) →
      (((∃ m ∈ ms, HasBlank (optStrings (matchStrings e) m)) ∨ ∃ s, err = some s ∧ Blank s.msg) → Loop.received e junk r = none) ∧
      (¬ ((∃ m ∈ ms, HasBlank (optStrings (matchStrings e) m)) ∨ ∃ s, err = some s ∧ Blank s.msg) →
        Loop.received e junk r = some (ms ++ (if err = none then [] else [none])))) := by
  refine ⟨fun s => ⟨fun h => ?_, by rintro rfl; rfl⟩, ?_, ?_, ?_⟩
  · cases s with
    | unreachable => exact absurd rfl h
    | _ => rfl
  · intro r h; cases h; rfl
  · intro s r h
    cases h with
    | refused hs => simp only [Loop.received, if_neg hs]
  · intro ms err r h hk hg ht
    cases h with
    | streamed hne hb =>
      rename_i body
      obtain ⟨cs, js, h1, h2, h3, h4, h5⟩ := stream_lines he ms hk hg
      have hdec : cs.map (fun c => (unmarshal (asMmfResponse e) (c.flatMap charBytes)).getD (junk c)) = ms := by
        clear h1 h4 h5 hk hg hb hne ht
        induction h2 generalizing cs with
        | nil => cases h3; rfl
        | cons hm _ ih =>
          cases h3 with
          | cons hj3 h3 =>
            rw [List.map_cons, ih _ h3, (unmarshal_iff (asMmfResponse_iff e) _ _).mpr ⟨_, hj3, hm⟩]
            rfl
      have hwhite : (¬ ∃ m ∈ ms, HasBlank (optStrings (matchStrings e) m)) → ∀ c ∈ cs, ∀ x ∈ c, Mm.isSpace x = false := by
        intro hn c hc x hx
        cases hsx : Mm.isSpace x with
        | false => rfl
        | true => exact absurd (h5.mp ⟨c, hc, x, hx, (isSpace_iff x).mp hsx⟩) hn
      simp only [Loop.received, appendRunes]
      unfold Loop.bodyBytes at hb
      rw [h1, envelope_bytes] at hb
      cases err with
      | none =>
        have hbody : body = cs.flatMap Mm.envelope := by
          rw [List.append_nil] at hb
          exact Json.flatMap_charBytes_inj hb
        subst hbody
        refine ⟨?_, ?_⟩
        · rintro (hbl | ⟨s, hs, -⟩)
          · rw [(C76_exactly cs h4).2 (h5.mpr hbl)]; rfl
          · cases hs
        · intro hbl
          rw [(C76_exactly cs h4).1 fun c hc x hx hw => hbl (.inl (h5.mp ⟨c, hc, x, hx, hw⟩))]
          simp [hdec]
      | some s =>
        obtain ⟨r, hr, hrn, hrw⟩ := errLine_text s (ht s rfl)
        have hbody : body = cs.flatMap Mm.envelope ++ ("{\"error\":{\"".toList ++ r ++ ['}', '}']) := by
          apply Json.flatMap_charBytes_inj
          rw [hb, List.flatMap_append, ← hr]
        subst hbody
        refine ⟨?_, ?_⟩
        · intro hbl
          have : Mm.readStream ((cs.flatMap Mm.envelope ++ ("{\"error\":{\"".toList ++ r ++ ['}', '}'])).length + 1)
              (cs.flatMap Mm.envelope ++ ("{\"error\":{\"".toList ++ r ++ ['}', '}'])) = none := by
            by_cases hsb : Blank s.msg
            · obtain ⟨a, c, b, rfl, ha, hc⟩ := first_white r (hrw.mpr hsb)
              have hf : Mm.fscanf ('{' :: ("\"error\":{\"".toList ++ a) ++ c :: ((b ++ ['}']) ++ ['}'])) = .err := by
                refine fscanf_error ?_ hc ?_
                · intro x hx
                  rcases List.mem_append.1 hx with hx | hx
                  · exact (by decide +kernel : ∀ x ∈ "\"error\":{\"".toList, Mm.isSpace x = false) x hx
                  · exact ha x hx
                · intro hx
                  rcases List.mem_cons.1 hx with rfl | hx
                  · exact hrn (by simp)
                  · rcases List.mem_append.1 hx with hx | hx
                    · exact hrn (by simp [hx])
                    · exact absurd hx (by decide)
              have := readStream_error cs h4 hf ((cs.flatMap Mm.envelope ++ ("{\"error\":{\"".toList ++ (a ++ c :: b) ++ ['}', '}'])).length + 1)
              rw [← this]
              congr 2
              simp
            · obtain ⟨c, hc, x, hx, hw⟩ := h5.mpr (hbl.resolve_right (by rintro ⟨s', hs', hb'⟩; cases hs'; exact hsb hb'))
              exact read_white cs h4 ⟨c, hc, x, hx, hw⟩ _ _
          rw [this]
          rfl
        · intro hbl
          rw [not_or] at hbl
          have hr0 : ∀ c ∈ r, Mm.isSpace c = false := by
            intro c hc
            cases hsc : Mm.isSpace c with
            | false => rfl
            | true => exact absurd ⟨s, rfl, hrw.mp ⟨c, hc, (isSpace_iff c).mp hsc⟩⟩ hbl.2
          have hx : ∀ c ∈ "{\"error\":{\"".toList ++ r ++ ['}', '}'], Mm.isSpace c = false := by
            intro c hc
            rcases List.mem_append.1 hc with hc | hc
            · rcases List.mem_append.1 hc with hc | hc
              · exact (by decide +kernel : ∀ x ∈ "{\"error\":{\"".toList, Mm.isSpace x = false) c hc
              · exact hr0 c hc
            · exact (by decide : ∀ x ∈ ['}', '}'], Mm.isSpace x = false) c hc
          have hp : "{\"error\":{\"".toList = "{\"error\":{".toList ++ ['"'] := by decide +kernel
          have hlen : ("{\"error\":{\"".toList ++ r ++ ['}', '}']).length = r.length + 13 := by
            rw [List.length_append, List.length_append]
            have : "{\"error\":{\"".toList.length = 11 := by decide +kernel
            rw [this]
            simp
            omega
          have hlast := read_last hx (by omega)
          have hall := read_lines cs (hwhite hbl.1) _ _ _ hlast
          have hle : ∀ cs : List Str, cs.length ≤ (cs.flatMap Mm.envelope).length := by
            intro cs
            induction cs with
            | nil => simp
            | cons c cs ih =>
              rw [List.flatMap_cons, List.length_append, List.length_cons]
              have : 1 ≤ (Mm.envelope c).length := by simp only [Mm.envelope, List.length_append, List.length_cons]; omega
              omega
          have hle := hle cs
          rw [read_more hall (by rw [List.length_append (as := cs.flatMap Mm.envelope)]; omega)]
          simp only [Option.map_some, List.map_append, hdec, List.map_cons, List.map_nil]
          have h10 : "{\"error\":{".toList.length = 10 := by decide +kernel
          rw [hlen, hp, List.append_assoc, List.append_assoc, List.drop_left' h10]
          have : (['"'] ++ (r ++ ['}', '}'])).take (r.length + 13 - 11) = '"' :: (r ++ ['}']) := by
            rw [show r.length + 13 - 11 = (r.length + 1) + 1 by omega]
            show '"' :: ((r ++ (['}'] ++ ['}'])).take (r.length + 1)) = _
            rw [← List.append_assoc, List.take_left' (by simp)]
          rw [this, List.flatMap_cons, Json.charBytes_ascii (c := '"') (by decide)]
          have hq := quote_unread (e := e) ((r ++ ['}']).flatMap charBytes)
          rw [show (['"'] ++ (r ++ ['}']).flatMap charBytes) = '"' :: (r ++ ['}']).flatMap charBytes from rfl, hq, Option.getD_none, hj]
          simp

def lateError : Front.Status := ⟨14, "unavailable".toList⟩

/-- A case of C114: after a match comes an error, whose message is one word, and the example gets a second
match that nobody sent. -/
example : OverRest sampleEnv (.streamed [some sampleMatch] (some lateError))
      (.rest (some (200, Loop.bodyBytes sampleEnv [some sampleMatch] (some lateError)))) ∧
    (∀ m ∈ [some sampleMatch], OptAll (MatchOk sampleEnv) m) ∧ (∀ m ∈ [some sampleMatch], OptAll (MatchGo sampleEnv) m) ∧
    IsText lateError.msg ∧
    Loop.received sampleEnv (fun _ => none) (.rest (some (200, Loop.bodyBytes sampleEnv [some sampleMatch] (some lateError)))) =
      some [some sampleMatch, none] := by
  refine ⟨.streamed (by simp) (Json.flatMap_ascii _ (by decide +kernel)), ?_, ?_, (Wire.utf8Valid_iff _).mp (by decide +kernel), by decide +kernel⟩
  · intro m hm; rw [List.mem_singleton.1 hm]; exact sampleMatch_ok.1
  · intro m hm; rw [List.mem_singleton.1 hm]; exact sampleMatch_ok.2

/-- Another one: with a blank in the message the example exits. -/
example : Loop.received sampleEnv (fun _ => none)
    (.rest (some (200, Loop.bodyBytes sampleEnv [some sampleMatch] (some ⟨14, "not now".toList⟩)))) = none := by decide +kernel

/-! ## C115: what the loop does with the matches -/

/-- The cycles of an execution. -/
def cyclesOf : List Loop.Lbl → List Loop.Cycle
  | [] => []
  | .cycle c :: ls => c :: cyclesOf ls
  | _ :: ls => cyclesOf ls

theorem cyclesOf_append (a b : List Loop.Lbl) : cyclesOf (a ++ b) = cyclesOf a ++ cyclesOf b := by
  induction a with
  | nil => rfl
  | cons l a ih => cases l <;> simp [cyclesOf, ih]

/-- The matches of a cycle; none if the process ended while it read them. -/
def gotIn (e : Env) (junk : Str → Option Match) (c : Loop.Cycle) : List (Option Match) := (Loop.received e junk c.answer).getD []

/-- The players of the matches that a cycle rejected. -/
def rejectedIn (e : Env) (junk : Str → Option Match) (c : Loop.Cycle) : List Str :=
  Mm.rejectedIds c.ord (Mm.judge c.draws 0 (gotIn e junk c)).2

structure LoopInv (e : Env) (junk : Str → Option Match) (cs : List Loop.Cycle) (s : Loop.St) : Prop where
  sum : s.accepted + s.rejected = (cs.flatMap (gotIn e junk)).length
  rej : s.rejected = (cs.flatMap fun c => (Mm.judge c.draws 0 (gotIn e junk c)).2).length
  size : ∀ c ∈ s.past, 0 < c.length ∧ c.length ≤ 500
  queue : s.queue = []
  ids : match s.phase with
    | .activating a => ∃ q0 ls, (Mm.St.init q0).run ls = some a ∧ Mm.pushed ls = [] ∧ s.past.flatten ++ q0 = cs.flatMap (rejectedIn e junk)
    | .ended .blocked => ∃ cs' c, cs = cs' ++ [c] ∧ 10000 < (rejectedIn e junk c).length ∧ s.past.flatten = cs'.flatMap (rejectedIn e junk)
    | .ended .crash => ∃ cs' c, cs = cs' ++ [c] ∧ Loop.received e junk c.answer = none ∧ s.past.flatten = cs.flatMap (rejectedIn e junk)
    | _ => s.past.flatten = cs.flatMap (rejectedIn e junk)

theorem judge_lengths (r : Nat → Nat) (ms : List (Option Match)) : (Mm.judge r 0 ms).1.length + (Mm.judge r 0 ms).2.length = ms.length := by
  rw [← List.length_append]
  exact (judge_perm r ms 0).length_eq

theorem loop_step {e : Env} {junk : Str → Option Match} {ig : Bool} {cs : List Loop.Cycle} {s s' : Loop.St} {l : Loop.Lbl}
    (h : LoopInv e junk cs s) (hs : s.step e junk ig l = some s') : LoopInv e junk (cs ++ cyclesOf [l]) s' := by
  obtain ⟨hsum, hrej, hsize, hq, hids⟩ := h
  unfold Loop.St.step at hs
  split at hs
  · -- a cycle
    rename_i c hp
    rw [hp] at hids
    dsimp only at hids
    split at hs
    · cases hs
      have hcy : cyclesOf [Loop.Lbl.cycle c] = [c] := rfl
      rw [hcy]
      unfold Loop.St.cycle
      cases hr : Loop.received e junk c.answer with
      | none =>
        have hg : gotIn e junk c = [] := by rw [gotIn, hr]; rfl
        have hri : rejectedIn e junk c = [] := by rw [rejectedIn, hg]; rfl
        exact ⟨by simpa [hg] using hsum, by simpa [hg, Mm.judge] using hrej, hsize, hq, cs, c, rfl, hr, by simpa [hri] using hids⟩
      | some ms =>
        have hg : gotIn e junk c = ms := by rw [gotIn, hr]; rfl
        have hl := judge_lengths c.draws ms
        have hsum' : s.accepted + (Mm.judge c.draws 0 ms).1.length + (s.rejected + (Mm.judge c.draws 0 ms).2.length) =
            ((cs ++ [c]).flatMap (gotIn e junk)).length := by
          rw [List.flatMap_append, List.length_append, ← hsum, List.flatMap_singleton, hg]
          omega
        have hrej' : s.rejected + (Mm.judge c.draws 0 ms).2.length =
            ((cs ++ [c]).flatMap fun c => (Mm.judge c.draws 0 (gotIn e junk c)).2).length := by
          rw [List.flatMap_append, List.length_append, ← hrej, List.flatMap_singleton, hg]
        have hri : rejectedIn e junk c = Mm.rejectedIds c.ord (Mm.judge c.draws 0 ms).2 := by rw [rejectedIn, hg]
        dsimp only
        split
        · rename_i h0
          have h2 : (Mm.judge c.draws 0 ms).2 = [] := List.length_eq_zero_iff.mp (by omega)
          have hri0 : rejectedIn e junk c = [] := by rw [hri, h2]; rfl
          split
          · exact ⟨hsum', hrej', hsize, hq, by simpa [hri0] using hids⟩
          · refine ⟨hsum', hrej', hsize, hq, ?_⟩
            rw [hp]
            simpa [hri0] using hids
        · rw [hq, requeue_eq _ _ (by simp)]
          by_cases hle : ([] : List Str).length + (Mm.rejectedIds c.ord (Mm.judge c.draws 0 ms).2).length ≤ Mm.chanCap
          · rw [if_pos hle]
            exact ⟨hsum', hrej', hsize, rfl, _, [], rfl, rfl, by simp [hids, hri]⟩
          · rw [if_neg hle]
            refine ⟨hsum', hrej', hsize, rfl, cs, c, rfl, ?_, hids⟩
            rw [hri]
            simpa [Mm.chanCap] using hle
    · cases hs
  · rename_i hp
    split at hs
    · cases hs
    · cases hs
      rw [hp] at hids
      exact ⟨by simpa [cyclesOf] using hsum, by simpa [cyclesOf] using hrej, hsize, hq, by simpa [cyclesOf] using hids⟩
  · rename_i a l' hp
    rw [hp] at hids
    obtain ⟨q0, ls, hrun, hpu, hi⟩ := hids
    have hx : ∃ b, a.step l' = some b ∧ s' = { s with phase := .activating b } ∧ Mm.pushed [l'] = [] := by
      cases l' with
      | push id => cases hs
      | _ =>
        simp only [Option.map_eq_some_iff] at hs
        obtain ⟨b, hb, rfl⟩ := hs
        exact ⟨b, hb, rfl, rfl⟩
    obtain ⟨b, hb, rfl, hpl⟩ := hx
    refine ⟨by simpa [cyclesOf] using hsum, by simpa [cyclesOf] using hrej, hsize, hq, q0, ls ++ [l'], ?_, ?_, by simpa [cyclesOf] using hi⟩
    · rw [Mm.run_append, hrun, Option.bind_some, Mm.St.run, hb]
      rfl
    · rw [Mm.pushed_append, hpu, hpl]
      rfl
  · rename_i a hp
    rw [hp] at hids
    obtain ⟨q0, ls, hrun, hpu, hi⟩ := hids
    split at hs
    · rename_i hpc
      cases hs
      obtain ⟨h1, -, -, -, h5⟩ := C63_batches q0 ls a hrun
      have hd := (Mm.inv hrun).drained hpu ((Mm.inv hrun).ended (.inr hpc)).1 ((Mm.inv hrun).ended (.inr hpc)).2
      refine ⟨by simpa [cyclesOf] using hsum, by simpa [cyclesOf] using hrej, ?_, hd, ?_⟩
      · intro c hc
        rcases List.mem_append.1 hc with hc | hc
        · exact hsize c hc
        · exact h1 c hc
      · simp only [cyclesOf, List.append_nil, List.flatten_append]
        rw [h5 hpc hpu, hi]
    · cases hs
  · cases hs

theorem loop_inv {e : Env} {junk : Str → Option Match} {ig : Bool} (evs : List Loop.Lbl) : ∀ {s s' : Loop.St} {cs : List Loop.Cycle},
    LoopInv e junk cs s → s.run e junk ig evs = some s' → LoopInv e junk (cs ++ cyclesOf evs) s' := by
  induction evs with
  | nil => intro s s' cs h hs; cases hs; simpa [cyclesOf] using h
  | cons l evs ih =>
    intro s s' cs h hs
    rw [Loop.St.run, Option.bind_eq_some_iff] at hs
    obtain ⟨s1, h1, h2⟩ := hs
    have := ih (loop_step h h1) h2
    rwa [List.append_assoc, ← cyclesOf_append] at this

theorem loop_inv0 {e : Env} {junk : Str → Option Match} (f : Loop.Flags) : LoopInv e junk [] (Loop.St.init f) :=
  ⟨rfl, rfl, by simp [Loop.St.init], rfl, rfl⟩

/-- **C115.** In every execution of the example's main loop, whatever om-core answers and whatever is drawn: the
two counters together count the matches received, and the second those rejected; every activation call is one
that om-core takes; the players of all rejected matches, and nobody else, are in the calls, in order, when the
loop is between two cycles or has ended in the regular way.  During `activateTickets` the rest of them is in the
batch being gathered or in the channel. -/
theorem C115_rejected_reactivated (e : Env) (junk : Str → Option Match) (f : Loop.Flags) (cfg : Config) (hcfg : 500 ≤ cfg.maxUpdates)
    (evs : List Loop.Lbl) (s : Loop.St) (hr : (Loop.St.init f).run e junk f.ignoreEmpty evs = some s) :
    s.accepted + s.rejected = ((cyclesOf evs).flatMap (gotIn e junk)).length ∧
    s.rejected = ((cyclesOf evs).flatMap fun c => (Mm.judge c.draws 0 (gotIn e junk c)).2).length ∧
    (∀ b ∈ s.calls, ∃ us, activeStateQueue cfg .activate b = .ok us) ∧
    (s.phase = .idle ∨ s.phase = .ended .budget ∨ s.phase = .ended .empty →
      s.calls.flatten = (cyclesOf evs).flatMap (rejectedIn e junk)) ∧
    (∀ a, s.phase = .activating a → ∃ gathering : List Str, gathering.length ≤ 500 ∧
      s.calls.flatten ++ gathering ++ a.queue = (cyclesOf evs).flatMap (rejectedIn e junk)) := by
  obtain ⟨hsum, hrej, hsize, hq, hids⟩ := loop_inv evs (loop_inv0 f) hr
  rw [List.nil_append] at *
  refine ⟨hsum, hrej, ?_, ?_, ?_⟩
  · intro b hb
    have hlen : 0 < b.length ∧ b.length ≤ 500 := by
      rcases List.mem_append.1 hb with hb | hb
      · exact hsize b hb
      · cases hp : s.phase with
        | activating a =>
          rw [hp] at hb hids
          obtain ⟨q0, ls, hrun, -⟩ := hids
          exact (C63_batches q0 ls a hrun).1 b hb
        | _ => rw [hp] at hb; cases hb
    refine (C14_batch_size cfg .activate b).2 ⟨?_, by omega⟩
    rintro rfl
    exact absurd hlen.1 (by simp)
  · rintro (hp | hp | hp) <;> rw [hp] at hids <;> simpa [Loop.St.calls, hp] using hids
  · intro a hp
    rw [hp] at hids
    obtain ⟨q0, ls, hrun, hpu, hi⟩ := hids
    have hinv := Mm.inv hrun
    refine ⟨Mm.pend a, ?_, ?_⟩
    · have := hinv.room
      unfold Mm.pend Mm.maxActivationsPerCall at *
      split <;> first | exact this | exact Nat.zero_le _
    · have := hinv.split
      rw [hpu, List.append_nil] at this
      rw [← hi, ← this, Loop.St.calls, hp]
      simp

/-- What keeps the loop going: the answer could be read, and not more than 10000 players are rejected. -/
def FineCycle (e : Env) (junk : Str → Option Match) (c : Loop.Cycle) : Prop :=
  Loop.received e junk c.answer ≠ none ∧ (rejectedIn e junk c).length ≤ 10000

/-- `rc` says how many matches the cycles received. -/
def CycleCounts (e : Env) (junk : Str → Option Match) (rc : Nat → Nat) (cs : List Loop.Cycle) : Prop :=
  ∀ i c, cs[i]? = some c → rc i = (gotIn e junk c).length

theorem CycleCounts.left {e : Env} {junk : Str → Option Match} {rc : Nat → Nat} {a b : List Loop.Cycle} (h : CycleCounts e junk rc (a ++ b)) :
    CycleCounts e junk rc a := by
  intro i c hc
  obtain ⟨hi, -⟩ := List.getElem?_eq_some_iff.1 hc
  exact h i c (by rw [List.getElem?_append_left hi, hc])

theorem CycleCounts.last {e : Env} {junk : Str → Option Match} {rc : Nat → Nat} {a : List Loop.Cycle} {c : Loop.Cycle}
    (h : CycleCounts e junk rc (a ++ [c])) : rc a.length = (gotIn e junk c).length :=
  h a.length c (by simp)

/-- The cycles so far are a part of `Mm.cycles`. -/
def LoopTrack (e : Env) (junk : Str → Option Match) (ig : Bool) (n : Nat) (cs : List Loop.Cycle) (s : Loop.St) : Prop :=
  match s.phase with
  | .idle => (∀ c ∈ cs, FineCycle e junk c) ∧
      ∀ rc, CycleCounts e junk rc cs → Mm.cycles ig rc n 0 0 = Mm.cycles ig rc s.left cs.length s.emptyCycles
  | .activating _ => (∀ c ∈ cs, FineCycle e junk c) ∧
      ∀ rc, CycleCounts e junk rc cs → Mm.cycles ig rc n 0 0 = Mm.cycles ig rc (s.left - 1) cs.length s.emptyCycles
  | .ended .budget => (∀ c ∈ cs, FineCycle e junk c) ∧ ∀ rc, CycleCounts e junk rc cs → Mm.cycles ig rc n 0 0 = (cs.length, .budget)
  | .ended .empty => (∀ c ∈ cs, FineCycle e junk c) ∧ ∀ rc, CycleCounts e junk rc cs → Mm.cycles ig rc n 0 0 = (cs.length, .empty)
  | .ended .crash => ∃ cs' c, cs = cs' ++ [c] ∧ (∀ c ∈ cs', FineCycle e junk c) ∧ Loop.received e junk c.answer = none
  | .ended .blocked => ∃ cs' c, cs = cs' ++ [c] ∧ (∀ c ∈ cs', FineCycle e junk c) ∧ Loop.received e junk c.answer ≠ none ∧
      10000 < (rejectedIn e junk c).length

theorem track_step {e : Env} {junk : Str → Option Match} {ig : Bool} {n : Nat} {cs : List Loop.Cycle} {s s' : Loop.St} {l : Loop.Lbl}
    (hq : s.queue = []) (h : LoopTrack e junk ig n cs s) (hs : s.step e junk ig l = some s') :
    LoopTrack e junk ig n (cs ++ cyclesOf [l]) s' := by
  unfold LoopTrack at h
  unfold Loop.St.step at hs
  split at hs
  · rename_i c hp
    rw [hp] at h
    obtain ⟨hf, ht⟩ := h
    split at hs
    · rename_i hleft
      cases hs
      have hcy : cyclesOf [Loop.Lbl.cycle c] = [c] := rfl
      rw [hcy]
      obtain ⟨k, hk⟩ : ∃ k, s.left = k + 1 := ⟨s.left - 1, by omega⟩
      have hlen : (cs ++ [c]).length = cs.length + 1 := by simp
      unfold Loop.St.cycle
      cases hr : Loop.received e junk c.answer with
      | none => exact ⟨cs, c, rfl, hf, hr⟩
      | some ms =>
        have hg : gotIn e junk c = ms := by rw [gotIn, hr]; rfl
        have hri : rejectedIn e junk c = Mm.rejectedIds c.ord (Mm.judge c.draws 0 ms).2 := by rw [rejectedIn, hg]
        have hl := judge_lengths c.draws ms
        have hfine : (rejectedIn e junk c).length ≤ 10000 → ∀ c' ∈ cs ++ [c], FineCycle e junk c' := by
          intro hle c' hc'
          rcases List.mem_append.1 hc' with hc' | hc'
          · exact hf c' hc'
          · rw [List.mem_singleton.1 hc']
            exact ⟨by rw [hr]; simp, hle⟩
        have hunf : ∀ rc, CycleCounts e junk rc (cs ++ [c]) → Mm.cycles ig rc n 0 0 =
            if ms.length = 0 then
              if !ig && decide (s.emptyCycles ≥ 3) then (cs.length + 1, .empty)
              else Mm.cycles ig rc k (cs.length + 1) (s.emptyCycles + 1)
            else Mm.cycles ig rc k (cs.length + 1) 0 := by
          intro rc hc
          rw [ht rc hc.left, hk, Mm.cycles, hc.last, hg]
        dsimp only
        split
        · rename_i h0
          have h2 : (Mm.judge c.draws 0 ms).2 = [] := List.length_eq_zero_iff.mp (by omega)
          have hri0 : rejectedIn e junk c = [] := by rw [hri, h2]; rfl
          have hms : ms.length = 0 := by omega
          have hfi := hfine (by rw [hri0]; exact Nat.zero_le _)
          split
          · rename_i hb
            refine ⟨hfi, fun rc hc => ?_⟩
            rw [hunf rc hc, if_pos hms, if_pos hb, hlen]
          · rename_i hb
            unfold LoopTrack
            rw [hp]
            refine ⟨hfi, fun rc hc => ?_⟩
            rw [hunf rc hc, if_pos hms, if_neg hb, hlen]
            dsimp only
            rw [hk]
            rfl
        · rename_i h0
          have hms : ms.length ≠ 0 := by omega
          rw [hq, requeue_eq _ _ (by simp)]
          by_cases hle : ([] : List Str).length + (Mm.rejectedIds c.ord (Mm.judge c.draws 0 ms).2).length ≤ Mm.chanCap
          · rw [if_pos hle]
            refine ⟨hfine (by rw [hri]; simpa [Mm.chanCap] using hle), fun rc hc => ?_⟩
            rw [hunf rc hc, if_neg hms, hlen]
            dsimp only
            rw [hk]
            rfl
          · rw [if_neg hle]
            refine ⟨cs, c, rfl, hf, by rw [hr]; simp, ?_⟩
            rw [hri]
            simpa [Mm.chanCap] using hle
    · cases hs
  · rename_i hp
    rw [hp] at h
    split at hs
    · cases hs
    · rename_i h0
      cases hs
      simp only [cyclesOf, List.append_nil]
      refine ⟨h.1, fun rc hc => ?_⟩
      rw [h.2 rc hc, show s.left = 0 by omega]
      rfl
  · rename_i a l' hp
    rw [hp] at h
    have hx : ∃ b, s' = { s with phase := .activating b } := by
      cases l' with
      | push id => cases hs
      | _ =>
        simp only [Option.map_eq_some_iff] at hs
        obtain ⟨b, -, rfl⟩ := hs
        exact ⟨b, rfl⟩
    obtain ⟨b, rfl⟩ := hx
    simp only [cyclesOf, List.append_nil]
    exact h
  · rename_i a hp
    rw [hp] at h
    split at hs
    · cases hs
      simp only [cyclesOf, List.append_nil]
      exact h
    · cases hs
  · cases hs

theorem loop_track {e : Env} {junk : Str → Option Match} {ig : Bool} {n : Nat} (evs : List Loop.Lbl) : ∀ {s s' : Loop.St} {cs : List Loop.Cycle},
    LoopInv e junk cs s → LoopTrack e junk ig n cs s → s.run e junk ig evs = some s' → LoopTrack e junk ig n (cs ++ cyclesOf evs) s' := by
  induction evs with
  | nil => intro s s' cs _ h hs; cases hs; simpa [cyclesOf] using h
  | cons l evs ih =>
    intro s s' cs hi h hs
    rw [Loop.St.run, Option.bind_eq_some_iff] at hs
    obtain ⟨s1, h1, h2⟩ := hs
    have := ih (loop_step hi h1) (track_step hi.queue h h1) h2
    rwa [List.append_assoc, ← cyclesOf_append] at this

/-- How many matches the cycles of an execution received. -/
def matchesIn (e : Env) (junk : Str → Option Match) (evs : List Loop.Lbl) (i : Nat) : Nat :=
  match (cyclesOf evs)[i]? with
  | some c => (gotIn e junk c).length
  | none => 0

theorem counts_matchesIn (e : Env) (junk : Str → Option Match) (evs : List Loop.Lbl) :
    CycleCounts e junk (matchesIn e junk evs) (cyclesOf evs) := by
  intro i c h
  rw [matchesIn, h]

theorem track_of_run {e : Env} {junk : Str → Option Match} {f : Loop.Flags} {evs : List Loop.Lbl} {s : Loop.St}
    (hr : (Loop.St.init f).run e junk f.ignoreEmpty evs = some s) :
    LoopTrack e junk f.ignoreEmpty f.cycles.toNat (cyclesOf evs) s := by
  have := loop_track evs (n := f.cycles.toNat) (loop_inv0 f) (show LoopTrack e junk f.ignoreEmpty f.cycles.toNat [] (Loop.St.init f) from
    ⟨by simp, fun _ _ => rfl⟩) hr
  simpa using this

/-- **C115 (endings).** In every execution of the loop: the process ends while reading an answer if and only if
there was an answer that could not be read, and it blocks for ever if and only if more than 10000 players of
one cycle were rejected; otherwise the loop ends after the first four cycles in a row without a match, or after
-cycles cycles; with -ignoreEmpty, only after those. -/
theorem C115_endings (e : Env) (junk : Str → Option Match) (f : Loop.Flags)
    (evs : List Loop.Lbl) (s : Loop.St) (hr : (Loop.St.init f).run e junk f.ignoreEmpty evs = some s) :
    (s.phase = .ended .crash ↔ ∃ c ∈ cyclesOf evs, Loop.received e junk c.answer = none) ∧
    (s.phase = .ended .blocked ↔ ∃ c ∈ cyclesOf evs, 10000 < (rejectedIn e junk c).length) ∧
    (s.phase = .ended .budget → (cyclesOf evs).length = f.cycles.toNat) ∧
    (s.phase = .ended .empty → f.ignoreEmpty = false ∧ Streak (matchesIn e junk evs) 4 (cyclesOf evs).length) ∧
    (f.ignoreEmpty = false → s.phase = .ended .budget ∨ s.phase = .ended .empty →
      ∀ i < (cyclesOf evs).length, ¬ Streak (matchesIn e junk evs) 4 i) := by
  have ht := track_of_run hr
  have hblank : ∀ c, Loop.received e junk c.answer = none → rejectedIn e junk c = [] := by
    intro c hc
    rw [rejectedIn, gotIn, hc]
    rfl
  have hnone : (∀ c ∈ cyclesOf evs, FineCycle e junk c) →
      (¬ ∃ c ∈ cyclesOf evs, Loop.received e junk c.answer = none) ∧ ¬ ∃ c ∈ cyclesOf evs, 10000 < (rejectedIn e junk c).length :=
    fun h => ⟨fun ⟨c, hc, hx⟩ => (h c hc).1 hx, fun ⟨c, hc, hx⟩ => absurd (h c hc).2 (by omega)⟩
  have hcount := counts_matchesIn e junk evs
  unfold LoopTrack at ht
  cases hp : s.phase with
  | idle =>
    rw [hp] at ht
    have := hnone ht.1
    simp [this]
  | activating a =>
    rw [hp] at ht
    have := hnone ht.1
    simp [this]
  | ended x =>
    cases x with
    | crash =>
      rw [hp] at ht
      obtain ⟨cs', c, hcs, hf, hc⟩ := ht
      refine ⟨⟨fun _ => ⟨c, by rw [hcs]; simp, hc⟩, fun _ => rfl⟩, ⟨by simp, ?_⟩, by simp, by simp, by simp⟩
      rintro ⟨d, hd, hx⟩
      rw [hcs] at hd
      rcases List.mem_append.1 hd with hd | hd
      · exact absurd (hf d hd).2 (by omega)
      · rw [List.mem_singleton.1 hd, hblank c hc] at hx
        exact absurd hx (by simp)
    | blocked =>
      rw [hp] at ht
      obtain ⟨cs', c, hcs, hf, hc, hx⟩ := ht
      refine ⟨⟨by simp, ?_⟩, ⟨fun _ => ⟨c, by rw [hcs]; simp, hx⟩, fun _ => rfl⟩, by simp, by simp, by simp⟩
      rintro ⟨d, hd, hn⟩
      rw [hcs] at hd
      rcases List.mem_append.1 hd with hd | hd
      · exact absurd hn (hf d hd).1
      · rw [List.mem_singleton.1 hd] at hn
        exact absurd hn hc
    | budget =>
      rw [hp] at ht
      obtain ⟨h1, h2⟩ := hnone ht.1
      have hc := ht.2 _ hcount
      refine ⟨⟨by simp, fun h => absurd h h1⟩, ⟨by simp, fun h => absurd h h2⟩, fun _ => ?_, by simp, fun hi _ => ?_⟩
      · cases hig : f.ignoreEmpty with
        | true =>
          rw [hig, (C67_stops_at_four_partial _ _).2] at hc
          exact (congrArg Prod.fst hc).symm
        | false =>
          rw [hig] at hc
          have := (C67_stops_at_four_partial (matchesIn e junk evs) f.cycles.toNat).1
          rw [hc] at this
          rcases this with ⟨h, -⟩ | ⟨h, -⟩
          · cases h
          · exact congrArg Prod.fst h
      · rw [hi] at hc
        have := (C67_stops_at_four_partial (matchesIn e junk evs) f.cycles.toNat).1
        rw [hc] at this
        rcases this with ⟨h, -⟩ | ⟨h, h'⟩
        · cases h
        · intro i hlt
          have := congrArg Prod.fst h
          exact h' i (by dsimp only at this; omega)
    | empty =>
      rw [hp] at ht
      obtain ⟨h1, h2⟩ := hnone ht.1
      have hc := ht.2 _ hcount
      have hig : f.ignoreEmpty = false := by
        cases hig : f.ignoreEmpty with
        | true =>
          rw [hig, (C67_stops_at_four_partial _ _).2] at hc
          cases congrArg Prod.snd hc
        | false => rfl
      rw [hig] at hc
      have := (C67_stops_at_four_partial (matchesIn e junk evs) f.cycles.toNat).1
      rw [hc] at this
      rcases this with ⟨-, -, h3, h4⟩ | ⟨h, -⟩
      · exact ⟨⟨by simp, fun h => absurd h h1⟩, ⟨by simp, fun h => absurd h h2⟩, by simp, fun _ => ⟨hig, h3⟩, fun _ _ => h4⟩
      · cases congrArg Prod.snd h

/-- **C115 (progress).** The loop never waits for something that cannot happen: while it has not ended it can
take a step, whatever the next answer is. -/
theorem C115_progress (e : Env) (junk : Str → Option Match) (f : Loop.Flags)
    (evs : List Loop.Lbl) (s : Loop.St) (hr : (Loop.St.init f).run e junk f.ignoreEmpty evs = some s) :
    (∃ x, s.phase = .ended x) ∨ (∀ c, (s.step e junk f.ignoreEmpty (.cycle c)).isSome) ∨
      ∃ l, (∀ c, l ≠ .cycle c) ∧ (s.step e junk f.ignoreEmpty l).isSome := by
  have hi := loop_inv evs (loop_inv0 f) hr
  cases hp : s.phase with
  | ended x => exact .inl ⟨x, rfl⟩
  | idle =>
    right
    by_cases h0 : 0 < s.left
    · left
      intro c
      simp [Loop.St.step, hp, h0]
    · right
      exact ⟨.stop, by simp, by simp [Loop.St.step, hp, h0]⟩
  | activating a =>
    right; right
    have hids := hi.ids
    rw [hp] at hids
    obtain ⟨q0, ls, hrun, hpu, -⟩ := hids
    rcases (C63_terminates q0 ls a hrun hpu).2 with h | ⟨l, hl, hs⟩
    · exact ⟨.back, by simp, by simp [Loop.St.step, hp, h]⟩
    · refine ⟨.inner l, by simp, ?_⟩
      cases l with
      | push id => exact absurd rfl (hl id)
      | _ => simpa [Loop.St.step, hp] using hs

/-- The number of players rejected in some cycles. -/
def rejectedOf (e : Env) (junk : Str → Option Match) (cs : List Loop.Cycle) : Nat := (cs.flatMap (rejectedIn e junk)).length

/-- After `k` steps. -/
def LoopSteps (e : Env) (junk : Str → Option Match) (n k : Nat) (cs : List Loop.Cycle) (s : Loop.St) : Prop :=
  match s.phase with
  | .idle => k ≤ 12 * cs.length + 8 * rejectedOf e junk cs ∧ cs.length + s.left ≤ n
  | .activating a => ∃ q0 ls, (Mm.St.init q0).run ls = some a ∧ Mm.pushed ls = [] ∧ 0 < s.left ∧ cs.length + (s.left - 1) ≤ n ∧
      k + 11 + 8 * q0.length ≤ 12 * cs.length + 8 * rejectedOf e junk cs + ls.length
  | .ended .budget => k ≤ 12 * cs.length + 8 * rejectedOf e junk cs + 1 ∧ cs.length ≤ n
  | .ended _ => k ≤ 12 * cs.length + 8 * rejectedOf e junk cs ∧ cs.length ≤ n

theorem steps_step {e : Env} {junk : Str → Option Match} {ig : Bool} {n k : Nat} {cs : List Loop.Cycle} {s s' : Loop.St} {l : Loop.Lbl}
    (hq : s.queue = []) (h : LoopSteps e junk n k cs s) (hs : s.step e junk ig l = some s') :
    LoopSteps e junk n (k + 1) (cs ++ cyclesOf [l]) s' := by
  unfold LoopSteps at h
  unfold Loop.St.step at hs
  split at hs
  · rename_i c hp
    rw [hp] at h
    obtain ⟨hk, hn⟩ := h
    split at hs
    · rename_i hleft
      cases hs
      have hcy : cyclesOf [Loop.Lbl.cycle c] = [c] := rfl
      rw [hcy]
      have hlen : (cs ++ [c]).length = cs.length + 1 := by simp
      have hrej : rejectedOf e junk (cs ++ [c]) = rejectedOf e junk cs + (rejectedIn e junk c).length := by
        simp [rejectedOf]
      unfold Loop.St.cycle
      cases hr : Loop.received e junk c.answer with
      | none =>
        show _ ∧ _
        rw [hlen, hrej]
        omega
      | some ms =>
        have hg : gotIn e junk c = ms := by rw [gotIn, hr]; rfl
        have hri : rejectedIn e junk c = Mm.rejectedIds c.ord (Mm.judge c.draws 0 ms).2 := by rw [rejectedIn, hg]
        dsimp only
        split
        · split
          · show _ ∧ _
            rw [hlen, hrej]
            omega
          · unfold LoopSteps
            rw [hp]
            dsimp only
            rw [hlen, hrej]
            omega
        · rw [hq, requeue_eq _ _ (by simp)]
          by_cases hle : ([] : List Str).length + (Mm.rejectedIds c.ord (Mm.judge c.draws 0 ms).2).length ≤ Mm.chanCap
          · rw [if_pos hle]
            refine ⟨_, [], rfl, rfl, hleft, ?_, ?_⟩
            · dsimp only; rw [hlen]; omega
            · rw [hlen, hrej, hri, List.nil_append, List.length_nil]
              omega
          · rw [if_neg hle]
            show _ ∧ _
            rw [hlen, hrej]
            omega
    · cases hs
  · rename_i hp
    rw [hp] at h
    split at hs
    · cases hs
    · cases hs
      simp only [cyclesOf, List.append_nil]
      exact ⟨by omega, by omega⟩
  · rename_i a l' hp
    rw [hp] at h
    obtain ⟨q0, ls, hrun, hpu, h0, hn, hk⟩ := h
    have hx : ∃ b, a.step l' = some b ∧ s' = { s with phase := .activating b } ∧ Mm.pushed [l'] = [] := by
      cases l' with
      | push id => cases hs
      | _ =>
        simp only [Option.map_eq_some_iff] at hs
        obtain ⟨b, hb, rfl⟩ := hs
        exact ⟨b, hb, rfl, rfl⟩
    obtain ⟨b, hb, rfl, hpl⟩ := hx
    simp only [cyclesOf, List.append_nil]
    refine ⟨q0, ls ++ [l'], ?_, ?_, h0, hn, ?_⟩
    · rw [Mm.run_append, hrun, Option.bind_some, Mm.St.run, hb]
      rfl
    · rw [Mm.pushed_append, hpu, hpl]
      rfl
    · rw [List.length_append, List.length_singleton]
      omega
  · rename_i a hp
    rw [hp] at h
    obtain ⟨q0, ls, hrun, hpu, h0, hn, hk⟩ := h
    split at hs
    · cases hs
      simp only [cyclesOf, List.append_nil]
      have := (C63_terminates q0 ls a hrun hpu).1
      exact ⟨by omega, hn⟩
    · cases hs
  · cases hs

theorem loop_steps {e : Env} {junk : Str → Option Match} {ig : Bool} {n : Nat} (evs : List Loop.Lbl) : ∀ {s s' : Loop.St} {cs : List Loop.Cycle}
    {k : Nat}, LoopInv e junk cs s → LoopSteps e junk n k cs s → s.run e junk ig evs = some s' →
    LoopSteps e junk n (k + evs.length) (cs ++ cyclesOf evs) s' := by
  induction evs with
  | nil => intro s s' cs k _ h hs; cases hs; simpa [cyclesOf] using h
  | cons l evs ih =>
    intro s s' cs k hi h hs
    rw [Loop.St.run, Option.bind_eq_some_iff] at hs
    obtain ⟨s1, h1, h2⟩ := hs
    have := ih (loop_step hi h1) (steps_step hi.queue h h1) h2
    rwa [List.append_assoc, ← cyclesOf_append, show k + 1 + evs.length = k + (l :: evs).length by simp; omega] at this

/-- **C115 (termination).** No execution of the loop is endless: it has at most -cycles cycles, and at most 12
steps for each of them and 8 for each rejected player. -/
theorem C115_terminates (e : Env) (junk : Str → Option Match) (f : Loop.Flags)
    (evs : List Loop.Lbl) (s : Loop.St) (hr : (Loop.St.init f).run e junk f.ignoreEmpty evs = some s) :
    (cyclesOf evs).length ≤ f.cycles.toNat ∧
    evs.length ≤ 12 * (cyclesOf evs).length + 8 * ((cyclesOf evs).flatMap (rejectedIn e junk)).length + 1 := by
  have h := loop_steps evs (n := f.cycles.toNat) (k := 0) (loop_inv0 f)
    (show LoopSteps e junk f.cycles.toNat 0 [] (Loop.St.init f) from ⟨by simp, by simp [Loop.St.init]⟩) hr
  rw [Nat.zero_add, List.nil_append] at h
  unfold LoopSteps rejectedOf at h
  cases hp : s.phase with
  | idle => rw [hp] at h; dsimp only at h; omega
  | activating a =>
    rw [hp] at h
    obtain ⟨q0, ls, hrun, hpu, h0, hn, hk⟩ := h
    have := (C63_terminates q0 ls a hrun hpu).1
    exact ⟨by omega, by omega⟩
  | ended x => rw [hp] at h; cases x <;> dsimp only at h <;> omega

/-- A cycle with the match of `matchA` and another one, the former rejected, and one without matches. -/
def loopEvs : List Loop.Lbl :=
  [.cycle ⟨.grpc (some [some matchA, none, some popFive]), fun n => n, id⟩] ++ mmSchedule.map Loop.Lbl.inner ++
  [.back, .cycle ⟨.grpc (some []), fun n => n, id⟩, .stop]
def loopFlags : Loop.Flags := { Loop.Flags.default with conn := "grpc".toList, cycles := 2 }

/-- A case of C115. -/
example : ∃ s, (Loop.St.init loopFlags).run sampleEnv (fun _ => none) loopFlags.ignoreEmpty loopEvs = some s ∧
    s.phase = .ended .budget ∧ s.calls = [[idA]] ∧ s.accepted = 1 ∧ s.rejected = 2 ∧ (cyclesOf loopEvs).length = 2 := by
  have h : ((Loop.St.init loopFlags).run sampleEnv (fun _ => none) loopFlags.ignoreEmpty loopEvs).map (fun s =>
      ((match s.phase with | .ended .budget => true | _ => false), s.calls, s.accepted, s.rejected)) = some (true, [[idA]], 1, 2) := by
    decide +kernel
  obtain ⟨s, hs, he⟩ := Option.map_eq_some_iff.1 h
  simp only [Prod.mk.injEq] at he
  refine ⟨s, hs, ?_, he.2.1, he.2.2.1, he.2.2.2, rfl⟩
  have h1 := he.1
  cases hp : s.phase with
  | ended x => cases x <;> simp [hp] at h1 ⊢
  | _ => simp [hp] at h1

/-- Cases of C115 (endings): om-core is not there; four answers without a match. -/
example : (∃ s, (Loop.St.init Loop.Flags.default).run sampleEnv (fun _ => none) false [.cycle ⟨.rest none, fun n => n, id⟩] = some s ∧
      s.phase = .ended .crash) ∧
    (∃ s, (Loop.St.init loopFlags).run sampleEnv (fun _ => none) false (List.replicate 2 (.cycle ⟨.grpc (some []), fun n => n, id⟩)) = some s ∧
      s.emptyCycles = 2) ∧
    ∃ s, (Loop.St.init Loop.Flags.default).run sampleEnv (fun _ => none) false
        (List.replicate 4 (.cycle ⟨.rest (some (200, [])), fun n => n, id⟩)) = some s ∧ s.phase = .ended .empty :=
  ⟨⟨_, rfl, rfl⟩, ⟨_, rfl, rfl⟩, ⟨_, rfl, rfl⟩⟩

end OM.Props
