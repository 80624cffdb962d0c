import Verif.Props.MainLoop
import Verif.Props.Rounds
import Verif.Props.Serve
/-!
# Property C118: a round of the example over REST

The example gets its matches over REST, as it does by default.  A blank in any string of a match
ends it (C114); here: there is none, if the players come from the mock frontend and the matches
from the MMFs of this repository.
-/
namespace OM.Props
open OM.Spec OM.PJ OM.Mm

/-- What `Run` of the example MMFs may make of the chunks it receives, with the text of a clock in the match
ids, and times that timestamps can hold. -/
def SoloRunAt (msgs : List ChunkedMmfRunRequest) (r : Mmf.RunRes) : Prop :=
  ∃ (ok : Nat → Bool) (c : Nat) (now : Nat → Timestamp) (ord : GoMap Pool → GoMap Pool), (∀ n, TimeOk (now n)) ∧ (∀ m, (ord m).Perm m) ∧
    Mmf.withRequest (fun req => Mmf.soloduel ok (Serve.clockText c) now (ord (Mmf.pools req)) req) msgs = some r
def RoyaleRunAt (msgs : List ChunkedMmfRunRequest) (r : Mmf.RunRes) : Prop :=
  ∃ (ok : Nat → Bool) (c : Nat) (now : Nat → Timestamp), (∀ n, TimeOk (now n)) ∧
    Mmf.withRequest (Mmf.battleroyale ok (Serve.clockText c) now) msgs = some r
def TeamRunAt (msgs : List ChunkedMmfRunRequest) (r : Mmf.RunRes) : Prop :=
  ∃ (ok : Nat → Bool) (c : Nat → Nat) (now : Nat → Timestamp), (∀ n, TimeOk (now n)) ∧
    Mmf.withRequest (Mmf.teamshooter ok (fun n => Serve.clockText (c n)) now) msgs = some r

/-- An MMF of the example. -/
def ExampleMmfAt (sent : List ChunkedMmfRunRequest) (f : Relay.Mmf) : Prop :=
  Serves SoloRunAt sent f ∨ Serves RoyaleRunAt sent f ∨ Serves TeamRunAt sent f

/-! ## No blanks in what the MMFs add -/

theorem plain_text {s : Str} (h : Plain s) : IsText s := isText_ascii fun c hc => (h c hc).2

theorem plain_clockText (c : Nat) : Plain (Serve.clockText c) := by
  unfold Serve.clockText
  have hc : ∀ {c : Char} {b : Str}, c ∈ ['-', ':', 'T', '.', 'Z'] → Plain b → Plain (c :: b) := by
    intro c b h hb
    refine plain_cons ?_ ?_ hb <;> revert h <;> simp only [List.mem_cons, List.not_mem_nil, or_false] <;>
      rintro (rfl | rfl | rfl | rfl | rfl) <;> decide
  have hf := plain_fmtNatPad
  exact plain_append (plain_append (plain_append (plain_append (plain_append (plain_append (hf _ _) (hc (by decide) (hf _ _)))
    (hc (by decide) (hf _ _))) (hc (by decide) (hf _ _))) (hc (by decide) (hf _ _))) (hc (by decide) (hf _ _))) (hc (by decide) (hf _ _))

theorem plain_fmtInt (n : Int) : Plain (fmtInt n) := by
  cases n with
  | ofNat k => exact plain_fmtNat k
  | negSucc k => exact plain_cons (by decide) (by decide) (plain_fmtNat _)

theorem plain_rid (i : RId) : Plain i.fmt := plain_append (plain_fmtInt _) (plain_cons (by decide) (by decide) (plain_fmtNat _))

theorem plain_matchId {name t : Str} (h : Plain name) (ht : Plain t) (n : Nat) : Plain (Mmf.matchId name t n) :=
  plain_append (plain_append (plain_append (plain_append (plain_append (by decide) h) (by decide)) ht) (by decide)) (plain_fmtNat n)

theorem plain_rosterName {name : Str} (h : Plain name) (n : Nat) : Plain (Mmf.rosterName name n) :=
  plain_append (plain_append h (by decide)) (plain_fmtNatPad 4 n)

theorem plain_teamName (n : Nat) : Plain (Mmf.teamName n) := plain_append (by decide) (plain_fmtNatPad 2 n)

theorem wrapped_blank {fl : FloatText} {o : Opts} {url v : Str} {j : Json} (h0 : url ≠ []) (hu : Plain url)
    (he : wellKnown.enc url v = some [("value".toList, j)]) :
    HasBlank (extStrings ⟨fl, wellKnown, o⟩ ⟨url, v⟩) ↔ HasBlank (strings j) := by
  unfold extStrings
  have hv : ¬ Blank "value".toList := plain_not_blank (by decide)
  rw [if_neg h0]
  show HasBlank (url :: optStrings memberStrings (wellKnown.enc url v)) ↔ _
  rw [he, optStrings, memberStrings, memberStrings, List.append_nil, hasBlank_cons, hasBlank_cons]
  simp only [plain_not_blank hu, hv, false_or]

theorem anyString_blank {fl : FloatText} {o : Opts} {s : Str} :
    HasBlank (extStrings ⟨fl, wellKnown, o⟩ (Mmf.anyString s)) ↔ Blank s := by
  have hn : typeName "type.googleapis.com/google.protobuf.StringValue".toList = "google.protobuf.StringValue".toList := by decide +kernel
  refine (wrapped_blank (j := .str s) (by decide) (by decide +kernel) ?_).trans (by rw [strings, hasBlank_one])
  rw [wellKnown_enc, Wire.parseAll_ser, Option.bind_some, if_pos hn, getStr_strField]

theorem anyInt32_blank {fl : FloatText} {o : Opts} {v : Int} : ¬ HasBlank (extStrings ⟨fl, wellKnown, o⟩ (Mmf.anyInt32 v)) := by
  have hn : typeName "type.googleapis.com/google.protobuf.Int32Value".toList = "google.protobuf.Int32Value".toList := by decide +kernel
  have hd : ("google.protobuf.Int32Value".toList = "google.protobuf.StringValue".toList) ↔ False := by decide +kernel
  refine (wrapped_blank (j := .num (fmtInt (Wire.getInt32 1 (Wire.intField 1 v)))) (by decide) (by decide +kernel) ?_).not.2 (by simp [strings, hasBlank_nil])
  rw [wellKnown_enc, Wire.parseAll_ser, Option.bind_some, hn, if_neg hd.mp, if_pos rfl]

theorem anyTime_blank {fl : FloatText} {o : Opts} {t : Timestamp} (h : TimeOk t) :
    ¬ HasBlank (extStrings ⟨fl, wellKnown, o⟩ (Mmf.anyTime t)) := by
  have hn : typeName "type.googleapis.com/google.protobuf.Timestamp".toList = "google.protobuf.Timestamp".toList := by decide +kernel
  have hd : ("google.protobuf.Timestamp".toList = "google.protobuf.StringValue".toList) ↔ False := by decide +kernel
  have hd' : ("google.protobuf.Timestamp".toList = "google.protobuf.Int32Value".toList) ↔ False := by decide +kernel
  obtain ⟨j, hj, -⟩ := (timeW.exact_ t).mpr h
  refine (wrapped_blank (j := j) (by decide) (by decide +kernel) ?_).not.2 (fun hb => hasBlank_nil.1 ((timeJson_faithful t j hj).1 hb))
  rw [wellKnown_enc, Wire.parseAll_ser, Option.bind_some, hn, if_neg hd.mp, if_neg hd'.mp, if_pos rfl,
    Wire.toTimestamp_timestampF, hj, Option.map_some]
  obtain ⟨h1, h2, h3, h4⟩ := h
  simp only [Wire.tsOk, decide_eq_true_eq]
  omega

theorem mapStrings_blank {V : Type} {f : V → List Str} {m : GoMap V} :
    HasBlank (mapStrings f m) ↔ ∃ x ∈ m, Blank x.1 ∨ HasBlank (f x.2) := by
  unfold mapStrings
  rw [hasBlank_flatMap]
  simp only [hasBlank_cons]

theorem extensionsFor_blank {fl : FloatText} {o : Opts} {name prof : Str} (hn : ¬ Blank name) (hp : ¬ Blank prof) :
    ¬ HasBlank (mapStrings (extStrings ⟨fl, wellKnown, o⟩) (Mmf.extensionsFor name prof)) := by
  rw [mapStrings_blank]
  rintro ⟨x, hx, hb⟩
  simp only [Mmf.extensionsFor, List.mem_cons, List.not_mem_nil, or_false] at hx
  rcases hx with rfl | rfl | rfl
  · exact hb.elim (plain_not_blank (s := "score".toList) (by decide)) anyInt32_blank
  · exact hb.elim (plain_not_blank (s := "mmfName".toList) (by decide)) fun h => hn (anyString_blank.1 h)
  · exact hb.elim (plain_not_blank (s := "profileName".toList) (by decide)) fun h => hp (anyString_blank.1 h)

/-- The matches of the example MMFs have a blank only where a ticket or the profile's name has one. -/
theorem example_blank {fl : FloatText} {o : Opts} (ok : Nat → Bool) (t : Str) (times : Nat → Str) (now : Nat → Timestamp) (p : Profile)
    (ord : GoMap Pool) (hord : ord.Perm p.pools) (ht : Plain t) (hts : ∀ n, Plain (times n)) (hnow : ∀ n, TimeOk (now n)) (hp : ¬ Blank p.name)
    (htk : ∀ x, InPools p x → ¬ HasBlank (ticketStrings ⟨fl, wellKnown, o⟩ x)) :
    ∀ r, (Mmf.soloduel ok t now ord (some p) = some r ∨ Mmf.battleroyale ok t now (some p) = some r ∨
      Mmf.teamshooter ok times now (some p) = some r) →
    ∀ m ∈ r.sent, ¬ HasBlank (matchStrings ⟨fl, wellKnown, o⟩ m) := by
  have roster : ∀ (name : Str) (ts : List Ticket) (ext : GoMap AnyPb), Plain name → (∀ x ∈ ts, InPools p x) →
      ¬ HasBlank (mapStrings (extStrings ⟨fl, wellKnown, o⟩) ext) →
      ¬ (Blank name ∨ HasBlank (rosterStrings ⟨fl, wellKnown, o⟩ ⟨name, none, ts, ext⟩)) := by
    intro name ts ext hn hin hx
    rw [rosterStrings, hasBlank_cons, hasBlank_append, hasBlank_append, hasBlank_flatMap]
    rintro (h | h | (h | ⟨x, h1, h2⟩) | h)
    · exact plain_not_blank hn h
    · exact plain_not_blank hn h
    · exact hasBlank_nil.1 h
    · exact htk x (hin x h1) h2
    · exact hx h
  have ctime : ∀ n (k : Str), Plain k → ¬ HasBlank (mapStrings (extStrings ⟨fl, wellKnown, o⟩) [(k, Mmf.anyTime (now n))]) := by
    intro n k hk
    rw [mapStrings_blank]
    rintro ⟨x, hx, hb⟩
    rw [List.mem_singleton.1 hx] at hb
    exact hb.elim (plain_not_blank hk) (anyTime_blank (hnow n))
  have one : ∀ (name : Str) (n : Nat) (ts : List Ticket), Plain name → (∀ x ∈ ts, InPools p x) →
      ¬ HasBlank (matchStrings ⟨fl, wellKnown, o⟩ { id := Mmf.matchId name t n, rosters := [(Mmf.rosterName name n, { name := Mmf.rosterName name n, assignment := none, tickets := ts, extensions := [("CreationTime".toList, Mmf.anyTime (now n))] })], extensions := Mmf.extensionsFor name p.name }) := by
    intro name n ts hn hin
    rw [matchStrings, hasBlank_cons, hasBlank_append]
    rintro (h | h | h)
    · exact plain_not_blank (plain_matchId hn ht n) h
    · rw [mapStrings_blank] at h
      obtain ⟨x, hx, hb⟩ := h
      rw [List.mem_singleton.1 hx] at hb
      exact roster _ _ _ (plain_rosterName hn n) hin (ctime n _ (by decide)) hb
    · exact extensionsFor_blank (plain_not_blank hn) hp h
  rintro r (h | h | h) m hm
  · obtain ⟨r', k, h1, -, h3⟩ := solo_run ok t now ord p
    rw [h] at h1
    cases h1
    rw [h3] at hm
    obtain ⟨n, -, rfl⟩ := List.mem_map.1 hm
    refine one Mmf.soloName n _ (by decide) fun x hx => ?_
    obtain ⟨y, hy, q⟩ := mem_allTickets.mp (List.mem_of_mem_drop (List.mem_of_mem_take hx))
    exact ⟨y, hord.mem_iff.mp hy, q⟩
  · obtain ⟨r', k, h1, -, h3⟩ := br_run ok t now p
    rw [h] at h1
    cases h1
    rw [h3] at hm
    obtain ⟨n, -, rfl⟩ := List.mem_map.1 hm
    refine one Mmf.brName n _ (by decide) fun x hx => ?_
    have hx := List.mem_of_mem_drop (List.mem_of_mem_take hx)
    rw [← Mmf.participants_load] at hx
    exact inPools_participants hx
  · obtain ⟨r', k, h1, -, h3⟩ := ts_run ok times now p
    rw [h] at h1
    cases h1
    rw [h3] at hm
    obtain ⟨n, -, rfl⟩ := List.mem_map.1 hm
    have hn : Plain Mmf.tsName := by decide
    have hteam : ∀ i, ∀ x ∈ Mmf.team p.pools n i, InPools p x := by
      intro i x hx
      unfold Mmf.team at hx
      rcases List.mem_append.mp hx with hx | hx
      · rcases List.mem_append.mp hx with hx | hx
        · exact inPools_participants (List.mem_of_mem_drop (List.mem_of_mem_take hx))
        · exact inPools_participants (List.mem_of_mem_drop (List.mem_of_mem_take hx))
      · exact inPools_participants (List.mem_of_mem_drop (List.mem_of_mem_take hx))
    rw [matchStrings, hasBlank_cons, hasBlank_append]
    rintro (h | h | h)
    · exact plain_not_blank (plain_matchId hn (hts n) n) h
    · rw [mapStrings_blank] at h
      obtain ⟨x, hx, hb⟩ := h
      simp only [List.mem_cons, List.not_mem_nil, or_false] at hx
      rcases hx with rfl | rfl
      · exact roster _ _ _ (plain_teamName 1) (hteam 0) (by simp [mapStrings, hasBlank_nil]) hb
      · exact roster _ _ _ (plain_teamName 2) (hteam 1) (by simp [mapStrings, hasBlank_nil]) hb
    · rw [mapStrings, List.flatMap_append, hasBlank_append] at h
      exact h.elim (extensionsFor_blank (plain_not_blank hn) hp) (ctime n _ (by decide))

/-! ## C118 -/

theorem request_name {p : Profile} (hwf : p.pools.WF) {ts : List Ticket} (ha : ∀ t ∈ ts, t.attributes.isSome)
    {work : List (Ticket × List Str)} (hw : WorkFor p ts work) {sent got : List ChunkedMmfRunRequest}
    (hs : chunkedRequest p work = some sent) (hl : sent.length < 2 ^ 31) (hg : List.Forall₂ Received sent got) {k : Nat} {q : Profile}
    (h : getChunkedRequest (got.take k) = some (.profile (some q), [])) : q.name = p.name := by
  by_cases hk : k < got.length
  · obtain ⟨sent', h1, -, -, h4⟩ := C39_framing p hwf ts ha work hw
    obtain rfl : sent' = sent := Option.some.inj (h1.symm.trans hs)
    rw [(h4 hl got hg).2 k hk] at h
    cases h
  · rw [List.take_of_length_le (by omega)] at h
    obtain ⟨q', h1, h2, -⟩ := C42_profile_data_partial p hwf ts ha work hw sent hs hl got [] hg
    rw [List.append_nil, h] at h1
    cases h1
    exact h2

/-- A ticket that can be written as JSON and read back, and has no blank in any string. -/
def Smooth (e : Env) (t : Ticket) : Prop := TicketOk e t ∧ TicketGo e t ∧ ¬ HasBlank (ticketStrings e t)

theorem example_smooth {fl : FloatText} {o : Opts} {p : Profile} (hwf : p.pools.WF) {ts : List Ticket} (ha : ∀ t ∈ ts, t.attributes.isSome)
    (hn : IsText p.name) (hb : ¬ Blank p.name) (hts : ∀ t ∈ ts, Smooth ⟨fl, wellKnown, o⟩ t)
    {work : List (Ticket × List Str)} (hw : WorkFor p ts work) {sent : List ChunkedMmfRunRequest}
    (hs : chunkedRequest p work = some sent) (hl : sent.length < 2 ^ 31) {f : Relay.Mmf} (hf : ExampleMmfAt sent f) :
    ∀ m ∈ f.results, OptAll (MatchOk ⟨fl, wellKnown, o⟩) m ∧ OptAll (MatchGo ⟨fl, wellKnown, o⟩) m ∧
      ¬ HasBlank (optStrings (matchStrings ⟨fl, wellKnown, o⟩) m) := by
  have key : ∃ (got : List ChunkedMmfRunRequest) (k : Nat) (r : Mmf.RunRes) (l : List Match), List.Forall₂ Received sent got ∧ l <+: r.sent ∧
      List.Forall₂ SameMatch l f.results ∧ ∃ (ok : Nat → Bool) (t : Str) (times : Nat → Str) (now : Nat → Timestamp) (ord : GoMap Pool → GoMap Pool),
        (∀ m, (ord m).Perm m) ∧ Plain t ∧ (∀ n, Plain (times n)) ∧ (∀ n, TimeOk (now n)) ∧ some r ∈ mmfRuns ok t times now ord (got.take k) := by
    rcases hf with ⟨got, k, r, l, hg, ⟨ok, c, now, ord, hnow, hord, hr⟩, hpre, hsame⟩ | ⟨got, k, r, l, hg, ⟨ok, c, now, hnow, hr⟩, hpre, hsame⟩ |
      ⟨got, k, r, l, hg, ⟨ok, c, now, hnow, hr⟩, hpre, hsame⟩
    · exact ⟨got, k, r, l, hg, hpre, hsame, ok, Serve.clockText c, fun _ => [], now, ord, hord, plain_clockText c, fun _ _ h => (by cases h), hnow,
        by simp [mmfRuns, hr]⟩
    · exact ⟨got, k, r, l, hg, hpre, hsame, ok, Serve.clockText c, fun _ => [], now, id, fun _ => .refl _, plain_clockText c, fun _ _ h => (by cases h), hnow,
        by simp [mmfRuns, hr]⟩
    · exact ⟨got, k, r, l, hg, hpre, hsame, ok, [], fun n => Serve.clockText (c n), now, id, fun _ => .refl _, (by decide), fun n => plain_clockText _, hnow,
        by simp [mmfRuns, hr]⟩
  obtain ⟨got, k, r, l, hg, hpre, hsame, ok, t, times, now, ord, hord, ht, htimes, hnow, hr⟩ := key
  intro x hx
  obtain ⟨m, hm, hmx⟩ := forall₂_mem_right hsame hx
  have hmr : m ∈ r.sent := hpre.subset hm
  rcases request_seen hwf ha hw hs hl hg k with ⟨rest, he⟩ | ⟨q, hq, hqw, hqt⟩
  · have := no_request ok t times now ord hord _ rest he _ hr
    cases this
    cases hmr
  · have hname := request_name hwf ha hw hs hl hg hq
    have hin : ∀ y, InPools q y → y ∈ ts := by
      rintro y ⟨⟨n, pool⟩, hp, ro, hro, hy⟩
      refine (fits_of_seen hqt (n := n) ?_).1
      unfold poolTickets
      have := GoMap.load_of_mem hqw hp
      dsimp only at hro
      simp only [this, hro, hy]
    have hrun : Mmf.soloduel ok t now (ord q.pools) (some q) = some r ∨ Mmf.battleroyale ok t now (some q) = some r ∨
        Mmf.teamshooter ok times now (some q) = some r := by
      simp only [mmfRuns, Mmf.withRequest, hq, Mmf.pools, List.mem_cons, List.not_mem_nil, or_false] at hr
      rcases hr with h | h | h
      · exact .inl h.symm
      · exact .inr (.inl h.symm)
      · exact .inr (.inr h.symm)
    obtain ⟨k1, k2⟩ := C110_example_functions (fl := fl) (o := o) ok t times now q (ord q.pools) (hord _) (plain_text ht) (fun n => plain_text (htimes n))
      hnow (hname ▸ hn) (fun y hy => ⟨(hts y (hin y hy)).1, (hts y (hin y hy)).2.1⟩) r hrun m hmr
    have k3 := example_blank (fl := fl) (o := o) ok t times now q (ord q.pools) (hord _) ht htimes hnow (hname ▸ hb)
      (fun y hy => (hts y (hin y hy)).2.2) r hrun m hmr
    obtain ⟨z, rfl, hz1, hz2, hz3⟩ := hmx
    refine ⟨?_, ?_, ?_⟩
    · intro z' hz'
      cases hz'
      obtain ⟨a1, a2, a3⟩ := k1
      exact ⟨hz1 ▸ a1, fun y hy => a2 y (hz2.mem_iff.1 hy), fun y hy => a3 y (hz3.mem_iff.1 hy)⟩
    · intro z' hz'
      cases hz'
      obtain ⟨⟨a1, a2⟩, a3, a4⟩ := k2
      exact ⟨⟨(hz2.map _).nodup_iff.2 a1, fun y hy => a2 y (hz2.mem_iff.1 hy)⟩, (hz3.map _).nodup_iff.2 a3, fun y hy => a4 y (hz3.mem_iff.1 hy)⟩
    · intro hbl
      apply k3
      rw [optStrings, matchStrings, hasBlank_cons, hasBlank_append, mapStrings_blank, mapStrings_blank, hz1] at hbl
      rw [matchStrings, hasBlank_cons, hasBlank_append, mapStrings_blank, mapStrings_blank]
      rcases hbl with h | ⟨y, hy, h⟩ | ⟨y, hy, h⟩
      · exact .inl h
      · exact .inr (.inl ⟨y, hz2.mem_iff.1 hy, h⟩)
      · exact .inr (.inr ⟨y, hz3.mem_iff.1 hy, h⟩)

/-- **C118.** With the MMFs of this repository, and tickets and a profile name that JSON can hold and that have
no blanks, a matchmaker that talks to om-core over REST gets exactly the matches that om-core handed out, in
order, and goes on, whatever the schedule of the round; `fs` are the MMFs of the request. -/
theorem C118_round_over_rest {fl : FloatText} {o : Opts} (he : EnvOk ⟨fl, wellKnown, o⟩) (junk : Str → Option Match)
    (hj : ∀ t, junk ('"' :: t) = none) (p : Profile) (hwf : p.pools.WF) (ts : List Ticket) (ha : ∀ t ∈ ts, t.attributes.isSome)
    (hn : IsText p.name) (hb : ¬ Blank p.name) (hts : ∀ t ∈ ts, Smooth ⟨fl, wellKnown, o⟩ t)
    (work : List (Ticket × List Str)) (hw : WorkFor p ts work) (sent : List ChunkedMmfRunRequest)
    (hs : chunkedRequest p work = some sent) (hl : sent.length < 2 ^ 31)
    (wait : Bool) (fs : List Relay.Mmf) (hfs : ∀ f ∈ fs, f.starts = true → ExampleMmfAt sent f)
    (ls : List Relay.Label) (s : Relay.St) (hr : Relay.run wait fs (Relay.init fs) ls = some s)
    (r : Loop.Invoked) (ho : OverRest ⟨fl, wellKnown, o⟩ (.streamed (Relay.handed s) none) r) :
    Loop.received ⟨fl, wellKnown, o⟩ junk r = some (Relay.handed s) := by
  have key : ∀ m ∈ Relay.handed s, OptAll (MatchOk ⟨fl, wellKnown, o⟩) m ∧ OptAll (MatchGo ⟨fl, wellKnown, o⟩) m ∧
      ¬ HasBlank (optStrings (matchStrings ⟨fl, wellKnown, o⟩) m) := by
    intro m hm
    obtain ⟨f, hf, hst, hof⟩ := handed_from hr hm
    exact example_smooth hwf ha hn hb hts hw hs hl (hfs f hf hst) m hof
  have := ((C114_exactly_partial he junk hj).2.2.2 (Relay.handed s) none r ho (fun m hm => (key m hm).1) (fun m hm => (key m hm).2.1)
    (by intro s hs; cases hs)).2
  rw [this]
  · simp
  · rintro (⟨m, hm, hb⟩ | ⟨s, hs, -⟩)
    · exact (key m hm).2.2 hb
    · cases hs

/-- All tickets created so far are those of the mock frontend: `s` is the decimal text of a clock, whose time
is one of this era, and so is the end of the ticket's time to live. -/
def OnlyMocksNow (cfg : Config) (st : Sys.St) : Prop :=
  ∀ c x now t, st.calls c = some x → x.rpc = .create now (some t) → ∃ n f cr d, t = mockTicket (fmtNat n) f cr d ∧ DoubleGo f ∧
    TimeOk cr ∧ 0 ≤ cr.seconds ∧ 0 ≤ cfg.ttl ∧ cr.seconds + cfg.ttl ≤ 253402300799

theorem mock_smooth {fl : FloatText} {o : Opts} {cd : Codec} (hlaw : cd.Lawful) {cfg : Config} {H : Nat} {st : Sys.St} (hb : Sys.Base cd cfg H st)
    (hmock : OnlyMocksNow cfg st) {j : Nat} {pre : List Ev} {m : GoMap Ticket} (hm : SnapshotOf cd cfg st j pre m) :
    ∀ t ∈ m.map (·.2), t.attributes.isSome ∧ Smooth ⟨fl, wellKnown, o⟩ t := by
  have hmwf : m.WF := by obtain ⟨es, sn, -, h⟩ := hm; exact h.2.1
  intro t ht
  obtain ⟨⟨k, ct⟩, hkt, rfl⟩ := List.mem_map.1 ht
  have hload := GoMap.load_of_mem hmwf hkt
  obtain ⟨e, -, hk⟩ := snapshot_key hb hm hload
  obtain ⟨c, x, now, req, b, hc, hrpc, henc, hct⟩ := snapshot_tickets_are_created hb hm hload
  obtain ⟨n, f, cr, d, rfl, hf, hcr, h0, h1, h2⟩ := hmock c x now req hc hrpc
  have hsame := hlaw.ticket _ _ henc
  have hkp : Plain k := hk ▸ plain_rid e.1
  have hatt := hsame.attributes
  have hexp := hsame.expirationTime
  have hext := hsame.extensions
  dsimp only at hct ⊢
  cases hd : (cd.decT b).attributes with
  | none => rw [hd] at hatt; simp [builtTicket, SameOpt] at hatt
  | some a =>
    rw [hd] at hatt
    simp only [builtTicket, SameOpt] at hatt
    have hx0 : (cd.decT b).extensions = [] := List.perm_nil.1 hext
    have hs0 : a.stringArgs = [(classArg, mockClass d)] := List.perm_singleton.1 hatt.stringArgs
    have hd0 : a.doubleArgs = [(fmtNat n, f)] := List.perm_singleton.1 hatt.doubleArgs
    have ht0 : a.tags = [fmtNat n] := hatt.tags
    have hcl : Plain (mockClass d) := by
      unfold mockClass
      split
      · decide
      split <;> decide
    have hca : Plain classArg := by decide
    have hc0 : storedCreation now (mockTicket (fmtNat n) f cr d) = cr := by
      have := storedCreation_spec now (mockTicket (fmtNat n) f cr d)
      rcases this with ⟨c', h3, -, h4⟩ | ⟨h3, -⟩
      · cases h3; exact h4
      · exact absurd hcr (h3 cr rfl)
    subst hct
    refine ⟨by rw [hd]; rfl, ⟨plain_text hkp, ?_, ?_, ?_⟩, ⟨?_, ?_⟩, ?_⟩
    · intro te hte
      dsimp only at hte
      rw [hexp] at hte
      simp only [builtTicket, hc0, Option.some.injEq] at hte
      subst hte
      have hne : storedExpiration cfg cr (mockTicket (fmtNat n) f cr d).expirationTime = newTimestamp (defaultExpiration cfg cr) := rfl
      rw [hne]
      obtain ⟨a1, a2, a3, a4⟩ := hcr
      have hr := goSecs_range cfg.ttl
      have hle := goSecs_le (n := cfg.ttl) (by omega)
      simp only [newTimestamp, defaultExpiration, OM.asTime, nsPerSec, TimeOk]
      norm_num at hr
      omega
    · intro a' ha'
      dsimp only at ha'
      rw [hd] at ha'
      cases ha'
      refine ⟨?_, ?_, ?_, ?_⟩
      · intro y hy; rw [ht0] at hy; rw [List.mem_singleton.1 hy]; exact plain_text (plain_fmtNat n)
      · intro y hy; rw [hs0] at hy; rw [List.mem_singleton.1 hy]; exact ⟨plain_text hca, plain_text hcl⟩
      · intro y hy; rw [hd0] at hy; rw [List.mem_singleton.1 hy]; exact ⟨plain_text (plain_fmtNat n), trivial⟩
      · intro y hy
        rw [hatt.creationTime, hc0] at hy
        cases hy
        exact hcr
    · dsimp only; rw [hx0]; intro y hy; cases hy
    · intro a' ha'
      dsimp only at ha'
      rw [hd] at ha'
      cases ha'
      rw [DataGo, hs0, hd0]
      refine ⟨⟨by simp, fun y hy => trivial⟩, by simp, fun y hy => ?_⟩
      rw [List.mem_singleton.1 hy]; exact hf
    · dsimp only; rw [hx0]; exact ⟨List.nodup_nil, fun y hy => by cases hy⟩
    · rw [ticketStrings]
      dsimp only
      rw [hx0, hd, optStrings, attrStrings, ht0, hs0, hd0]
      simp [mapStrings, hasBlank_cons, hasBlank_nil, plain_not_blank hkp, plain_not_blank (plain_fmtNat n), plain_not_blank hca, plain_not_blank hcl]

/-- **C118 (the example).** So the example gets every match over REST: all players come from its mock frontend,
the profile is its own, the MMFs are those of this repository. -/
theorem C118_example {fl : FloatText} {o : Opts} (he : EnvOk ⟨fl, wellKnown, o⟩) (junk : Str → Option Match)
    (hj : ∀ t, junk ('"' :: t) = none) (cd : Codec) (hl : cd.Lawful) (cfg : Config) (H : Nat)
    (evs : List Sys.Label) (st : Sys.St) (hp : ∀ l ∈ evs, l.Plausible cfg H) (hrun : Sys.run cd cfg Sys.init evs = some st)
    (hmock : OnlyMocksNow cfg st) (j : Nat) (pre : List Ev) (m : GoMap Ticket) (hm : SnapshotOf cd cfg st j pre m)
    (work : List (Ticket × List Str)) (hw : WorkFor exampleProfile (m.map (·.2)) work) (sent : List ChunkedMmfRunRequest)
    (hs : chunkedRequest exampleProfile work = some sent) (hlen : sent.length < 2 ^ 31)
    (wait : Bool) (fs : List Relay.Mmf) (hfs : ∀ f ∈ fs, f.starts = true → ExampleMmfAt sent f)
    (ls : List Relay.Label) (s : Relay.St) (hr : Relay.run wait fs (Relay.init fs) ls = some s)
    (r : Loop.Invoked) (ho : OverRest ⟨fl, wellKnown, o⟩ (.streamed (Relay.handed s) none) r) :
    Loop.received ⟨fl, wellKnown, o⟩ junk r = some (Relay.handed s) := by
  have hb := Sys.base_run evs (Sys.base_init cd cfg H) hp st hrun
  have hsm := mock_smooth (fl := fl) (o := o) hl hb hmock hm
  have hname : Plain exampleProfile.name := by decide
  exact C118_round_over_rest he junk hj exampleProfile (by unfold GoMap.WF; decide) _ (fun t ht => (hsm t ht).1) (plain_text hname)
    (plain_not_blank hname) (fun t ht => (hsm t ht).2) work hw sent hs hlen wait fs hfs ls s hr r ho

/-! A case of C118: soloduel makes a match of two tanks at half past two. -/

def clockedSolo : Mmf.RunRes :=
  (Mmf.withRequest (fun req => Mmf.soloduel (fun _ => true) (Serve.clockText 5220000) (fun _ => ⟨0, 0⟩) (id (Mmf.pools req)) req) popSent).getD ⟨[], true⟩
def clockedDuel : Match := clockedSolo.sent.headD default
def clockedMmf : Relay.Mmf := ⟨true, [some clockedDuel], true⟩

theorem clocked_serves : ExampleMmfAt popSent clockedMmf := by
  refine .inl ⟨popSent, popSent.length, clockedSolo, [clockedDuel], popSent_received,
    ⟨fun _ => true, 5220000, fun _ => ⟨0, 0⟩, id, fun _ => by simp [TimeOk], fun _ => List.Perm.refl _, ?_⟩, ?_, sameMatch_refl [clockedDuel]⟩
  · rw [List.take_length]; decide +kernel
  · refine ⟨clockedSolo.sent.drop 1, ?_⟩
    decide +kernel

theorem mockAt_smooth {e : Env} (i d : Nat) : Smooth e (mockAt i d) := by
  have hn := plain_fmtNat i
  have hid : Plain ("1700000000000-".toList ++ fmtNat i) := plain_append (by decide) hn
  have hca : Plain classArg := by decide
  have hcl : Plain (mockClass d) := by
    unfold mockClass
    split
    · decide
    split <;> decide
  refine ⟨⟨plain_text hid, (fun t ht => by cases ht), ?_, fun x hx => by cases hx⟩, ⟨?_, List.nodup_nil, fun x hx => by cases hx⟩, ?_⟩
  · intro a ha
    cases ha
    refine ⟨?_, ?_, ?_, ?_⟩
    · intro y hy; rw [List.mem_singleton.1 hy]; exact plain_text hn
    · intro y hy; rw [List.mem_singleton.1 hy]; exact ⟨plain_text hca, plain_text hcl⟩
    · intro y hy; rw [List.mem_singleton.1 hy]; exact ⟨plain_text hn, trivial⟩
    · intro y hy; cases hy; exact ⟨by decide, by decide, by decide, by decide⟩
  · intro a ha
    cases ha
    refine ⟨⟨by simp, fun _ _ => trivial⟩, by simp, fun y hy => ?_⟩
    rw [List.mem_singleton.1 hy]
    intro h
    have h0 : F64.isNaN 0 = false := by decide
    exact absurd (h0.symm.trans h) (by simp)
  · have : ticketStrings e (mockAt i d) = [("1700000000000-".toList ++ fmtNat i), fmtNat i, classArg, mockClass d, fmtNat i] := rfl
    rw [this]
    generalize "1700000000000-".toList ++ fmtNat i = k at hid
    simp only [hasBlank_cons, hasBlank_nil, plain_not_blank hid, plain_not_blank hn, plain_not_blank hca, plain_not_blank hcl, or_self, not_false_eq_true]

example : ExampleMmfAt popSent clockedMmf ∧ (∀ t ∈ popTickets, Smooth sampleEnv t) ∧
    (matchTickets clockedDuel).map (·.id) = ["1700000000000-0".toList, "1700000000000-1".toList] ∧
    clockedDuel.id = "profile-a-simple-1v1-matchfunction-time-1970-01-01T14:30:00.00-num-0".toList ∧
    ∃ s, Relay.run false [clockedMmf] (Relay.init [clockedMmf]) ([.recv 0 clockedDuel.rosters] ++ upToSend 0 ++ [.hand 0]) = some s ∧
      Relay.handed s = [some clockedDuel] ∧
      ∃ body, OverRest sampleEnv (.streamed (Relay.handed s) none) (.rest (some (200, body))) ∧
        Loop.received sampleEnv (fun _ => none) (.rest (some (200, body))) = some [some clockedDuel] := by
  refine ⟨clocked_serves, ?_, by decide +kernel, by decide +kernel, ?_⟩
  · intro t ht
    simp only [popTickets, List.mem_cons, List.not_mem_nil, or_false] at ht
    rcases ht with rfl | rfl | rfl | rfl | rfl | rfl | rfl | rfl | rfl | rfl <;> exact mockAt_smooth _ _
  · have h : (Relay.run false [clockedMmf] (Relay.init [clockedMmf]) ([.recv 0 clockedDuel.rosters] ++ upToSend 0 ++ [.hand 0])).map Relay.handed =
        some [some clockedDuel] := by decide +kernel
    obtain ⟨s, hs, he⟩ := Option.map_eq_some_iff.1 h
    refine ⟨s, hs, he, Loop.bodyBytes sampleEnv [some clockedDuel] none, ?_, by decide +kernel⟩
    rw [he]
    exact .streamed (fun h => absurd rfl h) (Json.flatMap_ascii _ (by decide +kernel))

/-- The other case: a player with a blank in a tag, say, ends the example. -/
example : Loop.received sampleEnv (fun _ => none) (.rest (some (200, Loop.bodyBytes sampleEnv
    [some ⟨"m".toList, [("r".toList, ⟨"r".toList, none, [⟨"1-0".toList, none, some ⟨["new player".toList], [], [], none⟩, []⟩], []⟩)], []⟩] none))) = none := by
  decide +kernel

/-- A case of `OnlyMocksNow`. -/
example : ∃ st, Sys.run Wire.codec Config.default Sys.init evsMock = some st ∧ OnlyMocksNow Config.default st ∧
    (candidates (st.insts 0).cache).map (·.1) = [idA] := by
  have h : (Sys.run Wire.codec Config.default Sys.init evsMock).map (fun st => (candidates (st.insts 0).cache).map (·.1)) = some [idA] := by
    decide +kernel
  obtain ⟨st, hs, he⟩ := Option.map_eq_some_iff.1 h
  refine ⟨st, hs, ?_, he⟩
  intro c x now t hc hx
  rcases rpcAt_run _ hs c x.rpc (by simp [rpcAt, hc]) with h4 | ⟨i, h4⟩
  · simp [rpcAt, Sys.init] at h4
  · simp only [evsMock, List.mem_cons, List.not_mem_nil, or_false, Sys.Label.call.injEq, reduceCtorEq, false_or] at h4
    rcases h4 with ⟨-, -, e⟩ | ⟨-, -, e⟩
    · rw [hx] at e; injection e with _ e; injection e with e
      refine ⟨1, _, _, _, e.trans (by rw [show fmtNat 1 = "1".toList by decide +kernel]), ?_, ?_, ?_, ?_, ?_⟩
      · intro h; exact absurd (h : F64.isNaN 1 = true) (by decide)
      · exact ⟨by decide, by decide, by decide, by decide⟩
      · decide
      · decide
      · decide
    · rw [hx] at e; cases e

end OM.Props
