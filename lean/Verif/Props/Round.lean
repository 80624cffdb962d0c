import Verif.Props.Mmf
import Verif.Props.Relay
import Verif.Props.EndToEnd
import Verif.Spec.Round
import Mathlib.Data.List.Flatten
/-!
# Property C84: one whole matchmaking round

`InvokeMatchmakingFunctions` from the ticket snapshot to the stream of the matchmaker,
with the example MMFs at the other end: filling the pools, chunking, the chunks on the
wire, `GetChunkedRequest`, the MMF's `Run`, and the relay goroutines.
-/
namespace OM.Props
open OM.Spec

/-- What `Run` of the example MMFs may make of the chunks it receives before its stream
ends: any clock, any failing sends, any map iteration order. -/
def SoloRun (msgs : List ChunkedMmfRunRequest) (r : Mmf.RunRes) : Prop :=
  ∃ (ok : Nat → Bool) (t : Str) (now : Nat → Timestamp) (ord : GoMap Pool → GoMap Pool), (∀ m, (ord m).Perm m) ∧
    Mmf.withRequest (fun req => Mmf.soloduel ok t now (ord (Mmf.pools req)) req) msgs = some r
def RoyaleRun (msgs : List ChunkedMmfRunRequest) (r : Mmf.RunRes) : Prop :=
  ∃ (ok : Nat → Bool) (t : Str) (now : Nat → Timestamp), Mmf.withRequest (Mmf.battleroyale ok t now) msgs = some r
def TeamRun (msgs : List ChunkedMmfRunRequest) (r : Mmf.RunRes) : Prop :=
  ∃ (ok : Nat → Bool) (t : Nat → Str) (now : Nat → Timestamp), Mmf.withRequest (Mmf.teamshooter ok t now) msgs = some r

/-- The invoked `f` is an MMF with this `Run`: it receives the first `k` of the chunks
om-core sent (all of them if `k` is large enough), and om-core receives the first of the
matches it sends. -/
def Serves (Run : List ChunkedMmfRunRequest → Mmf.RunRes → Prop) (sent : List ChunkedMmfRunRequest) (f : Relay.Mmf) : Prop :=
  ∃ got k r l, List.Forall₂ Received sent got ∧ Run (got.take k) r ∧ l <+: r.sent ∧ List.Forall₂ SameMatch l f.results

/-- The matches an invoked MMF contributed. -/
theorem handed_from {wait : Bool} {fs : List Relay.Mmf} {ls : List Relay.Label} {s : Relay.St}
    (hr : Relay.run wait fs (Relay.init fs) ls = some s) {o : Option Match} (ho : o ∈ Relay.handed s) :
    ∃ f ∈ fs, f.starts = true ∧ o ∈ f.results := by
  have := (C43_faithful_at_most_once wait fs ls s hr).subset ho
  obtain ⟨f, hf, hm⟩ := List.mem_flatMap.1 this
  rw [List.mem_filter] at hf
  exact ⟨f, hf.1, hf.2, hm⟩

theorem forall₂_mem_right {α β : Type} {R : α → β → Prop} {l : List α} {l' : List β} (h : List.Forall₂ R l l')
    {b : β} (hb : b ∈ l') : ∃ a ∈ l, R a b := by
  induction h with
  | nil => cases hb
  | cons h1 _ ih =>
    rcases List.mem_cons.1 hb with rfl | hb
    · exact ⟨_, List.mem_cons_self .., h1⟩
    · obtain ⟨a, ha, hr⟩ := ih hb; exact ⟨a, List.mem_cons_of_mem _ ha, hr⟩

theorem mergePool_wf {acc acc' : GoMap Pool} {e : Str × Pool} (h : mergePool acc e = some acc') (hw : acc.WF) : acc'.WF := by
  unfold mergePool at h
  split at h
  · cases h; exact GoMap.WF_store hw _ _
  · split at h
    · cases h
    · cases h; exact GoMap.WF_store hw _ _

theorem mergePools_wf : ∀ (l : GoMap Pool) {acc acc' : GoMap Pool}, l.foldlM mergePool acc = some acc' → acc.WF → acc'.WF
  | [], _, _, h, hw => by cases h; exact hw
  | e :: l, acc, acc', h, hw => by
    rw [List.foldlM_cons] at h
    obtain ⟨a, h1, h2⟩ := Option.bind_eq_some_iff.1 h
    exact mergePools_wf l h2 (mergePool_wf h1 hw)

theorem getChunks_wf : ∀ (msgs : List ChunkedMmfRunRequest) (i : Nat) (pools : GoMap Pool) (q : Profile)
    (rest : List ChunkedMmfRunRequest), pools.WF → getChunks i pools msgs = some (.profile (some q), rest) → q.pools.WF
  | [], i, pools, q, rest, hw, h => by
    unfold getChunks at h
    split at h <;> simp at h
  | m :: msgs, i, pools, q, rest, hw, h => by
    unfold getChunks at h
    split at h
    · simp at h
    · dsimp only at h
      split at h
      · cases h
      · rename_i pools' hp
        have hw' := mergePools_wf _ hp hw
        split at h
        · cases h; exact hw'
        · exact getChunks_wf msgs (i + 1) pools' q rest hw' h

/-- The request as the MMF has it: nothing at all, or a profile whose pools hold exactly
the tickets that fit them. -/
theorem request_seen {p : Profile} (hwf : p.pools.WF) {ts : List Ticket} (ha : ∀ t ∈ ts, t.attributes.isSome)
    {work : List (Ticket × List Str)} (hw : WorkFor p ts work) {sent got : List ChunkedMmfRunRequest}
    (hs : chunkedRequest p work = some sent) (hl : sent.length < 2 ^ 31) (hg : List.Forall₂ Received sent got) (k : Nat) :
    (∃ rest, getChunkedRequest (got.take k) = some (.err, rest)) ∨
      ∃ q, getChunkedRequest (got.take k) = some (.profile (some q), []) ∧ q.pools.WF ∧
        ∀ n, poolTickets q n = [] ∨ ∃ pool, p.pools.load n = some pool ∧ ¬ BadTimes pool ∧ poolTickets q n = participants pool ts := by
  by_cases hk : k < got.length
  · obtain ⟨sent', h1, -, -, h4⟩ := C39_framing p hwf ts ha work hw
    obtain rfl : sent' = sent := Option.some.inj (h1.symm.trans hs)
    exact Or.inl ⟨_, (h4 hl got hg).2 k hk⟩
  · rw [List.take_of_length_le (by omega)]
    obtain ⟨sent', h1, h2⟩ := C38_mmf_receives_exactly_the_matching_tickets p hwf ts ha work hw
    obtain rfl : sent' = sent := Option.some.inj (h1.symm.trans hs)
    obtain ⟨q, h3, h4, h5⟩ := h2 hl got [] hg
    rw [List.append_nil] at h3
    refine Or.inr ⟨q, h3, getChunks_wf got 1 [] q [] (by simp [GoMap.WF]) h3, fun n => ?_⟩
    by_cases h : ∀ pool, p.pools.load n = some pool → BadTimes pool ∨ participants pool ts = []
    · left; unfold poolTickets; rw [h5 n h]
    · simp only [Classical.not_forall, not_or] at h
      obtain ⟨pool, hp, hb, hne⟩ := h
      obtain ⟨sp, r, a1, a2, a3⟩ := h4 n pool hp hb hne
      right
      refine ⟨pool, hp, hb, ?_⟩
      unfold poolTickets
      simp only [a1, a2, a3]

theorem fits_of_seen {p q : Profile} {ts : List Ticket}
    (hq : ∀ n, poolTickets q n = [] ∨ ∃ pool, p.pools.load n = some pool ∧ ¬ BadTimes pool ∧ poolTickets q n = participants pool ts)
    {n : Str} {t : Ticket} (ht : t ∈ poolTickets q n) : Fits p ts n t := by
  rcases hq n with h | ⟨pool, hp, hb, h⟩
  · rw [h] at ht; cases ht
  · rw [h] at ht
    have := List.mem_filter.1 ht
    exact ⟨this.1, pool, hp, hb, by simpa using this.2⟩

/-- An MMF that got no request sends nothing. -/
theorem serves_split {Run : List ChunkedMmfRunRequest → Mmf.RunRes → Prop} {P : Profile → Match → Prop} {Q : Option Match → Prop}
    {p : Profile} (hwf : p.pools.WF) {ts : List Ticket} (ha : ∀ t ∈ ts, t.attributes.isSome)
    {work : List (Ticket × List Str)} (hw : WorkFor p ts work) {sent : List ChunkedMmfRunRequest}
    (hs : chunkedRequest p work = some sent) (hl : sent.length < 2 ^ 31) {f : Relay.Mmf} (hf : Serves Run sent f)
    (herr : ∀ msgs rest r, getChunkedRequest msgs = some (.err, rest) → Run msgs r → r.sent = [])
    (hprof : ∀ msgs q r, getChunkedRequest msgs = some (.profile (some q), []) → q.pools.WF → Run msgs r → ∀ m ∈ r.sent, P q m)
    (hQ : ∀ q m o, q.pools.WF →
      (∀ n, poolTickets q n = [] ∨ ∃ pool, p.pools.load n = some pool ∧ ¬ BadTimes pool ∧ poolTickets q n = participants pool ts) →
      P q m → SameMatch m o → Q o) :
    ∀ o ∈ f.results, Q o := by
  obtain ⟨got, k, r, l, hg, hrun, hpre, hsame⟩ := hf
  intro o ho
  obtain ⟨m, hm, hmo⟩ := forall₂_mem_right hsame ho
  have hmr : m ∈ r.sent := hpre.subset hm
  rcases request_seen hwf ha hw hs hl hg k with ⟨rest, he⟩ | ⟨q, hq, hqw, hqt⟩
  · rw [herr _ _ _ he hrun] at hmr; cases hmr
  · exact hQ q m o hqw hqt (hprof _ _ _ hq hqw hrun m hmr) hmo

theorem perm_single {α : Type} {l : List α} {a : α} (h : l.Perm [a]) : l = [a] := List.perm_singleton.1 h

/-- What such an MMF contributes. -/
theorem duels_of_serves {p : Profile} (hwf : p.pools.WF) {ts : List Ticket} (ha : ∀ t ∈ ts, t.attributes.isSome)
    {work : List (Ticket × List Str)} (hw : WorkFor p ts work) {sent : List ChunkedMmfRunRequest}
    (hs : chunkedRequest p work = some sent) (hl : sent.length < 2 ^ 31) {f : Relay.Mmf} (hf : Serves SoloRun sent f) :
    ∀ o ∈ f.results, IsDuel p ts o := by
  refine serves_split (P := fun q m => ∃ (n : Str) (ro : Roster), m.rosters = [(n, ro)] ∧ ro.tickets.length = 2 ∧
      ∀ tk ∈ ro.tickets, ∃ n', tk ∈ poolTickets q n') hwf ha hw hs hl hf ?_ ?_ ?_
  · rintro msgs rest r he ⟨ok, t, now, ord, hord, hrun⟩
    have := no_request ok t (fun _ => []) now ord hord msgs rest he _ (List.mem_cons_self ..)
    rw [hrun] at this
    cases this; rfl
  · rintro msgs q r hq hqw ⟨ok, t, now, ord, hord, hrun⟩ m hm
    simp only [Mmf.withRequest, hq] at hrun
    obtain ⟨r', h1, -, h3, -, h5, -⟩ := C50_pairs ok t now q (ord q.pools) (hord _)
    obtain rfl : r' = r := Option.some.inj (h1.symm.trans hrun)
    obtain ⟨n, ro, h6, h7⟩ := h3 m hm
    refine ⟨n, ro, h6, h7, fun tk htk => ?_⟩
    obtain ⟨e, he, r2, h8, h9⟩ := h5 m hm tk (by simp [matchTickets, h6, htk])
    refine ⟨e.1, ?_⟩
    unfold poolTickets
    simp only [GoMap.load_of_mem hqw he, h8, h9]
  · rintro q m o hqw hqt ⟨n, ro, h1, h2, h3⟩ ⟨x, rfl, -, hx, -⟩
    rw [h1] at hx
    match hro : ro.tickets, h2 with
    | [a, b], _ =>
      obtain ⟨na, hna⟩ := h3 a (by simp [hro])
      obtain ⟨nb, hnb⟩ := h3 b (by simp [hro])
      exact ⟨x, n, ro, a, b, rfl, perm_single hx, hro, ⟨na, fits_of_seen hqt hna⟩, ⟨nb, fits_of_seen hqt hnb⟩⟩

/-- **C84 (1v1).** Whatever the iteration orders, chunk boundaries, clocks, failing sends,
broken streams and schedule of the relay goroutines: every match the matchmaker gets from
soloduel has exactly two tickets, both of the snapshot and each admitted by the filters of
some pool of the matchmaker's profile. -/
theorem C84_duels (p : Profile) (hwf : p.pools.WF) (ts : List Ticket) (ha : ∀ t ∈ ts, t.attributes.isSome)
    (work : List (Ticket × List Str)) (hw : WorkFor p ts work) (sent : List ChunkedMmfRunRequest)
    (hs : chunkedRequest p work = some sent) (hl : sent.length < 2 ^ 31)
    (wait : Bool) (fs : List Relay.Mmf) (hfs : ∀ f ∈ fs, f.starts = true → Serves SoloRun sent f)
    (ls : List Relay.Label) (s : Relay.St) (hr : Relay.run wait fs (Relay.init fs) ls = some s) :
    ∀ o ∈ Relay.handed s, IsDuel p ts o := by
  intro o ho
  obtain ⟨f, hf, hst, hof⟩ := handed_from hr ho
  exact duels_of_serves hwf ha hw hs hl (hfs f hf hst) o hof

/-- What such an MMF contributes. -/
theorem royales_of_serves {p : Profile} (hwf : p.pools.WF) {ts : List Ticket} (ha : ∀ t ∈ ts, t.attributes.isSome)
    {work : List (Ticket × List Str)} (hw : WorkFor p ts work) {sent : List ChunkedMmfRunRequest}
    (hs : chunkedRequest p work = some sent) (hl : sent.length < 2 ^ 31) {f : Relay.Mmf} (hf : Serves RoyaleRun sent f) :
    ∀ o ∈ f.results, IsRoyale p ts o := by
  refine serves_split (P := fun q m => ∃ (n : Str) (ro : Roster), m.rosters = [(n, ro)] ∧ ro.tickets.length = 100 ∧
      ∀ tk ∈ ro.tickets, tk ∈ poolTickets q "competitive".toList) hwf ha hw hs hl hf ?_ ?_ ?_
  · rintro msgs rest r he ⟨ok, t, now, hrun⟩
    have := no_request ok t (fun _ => []) now id (fun _ => List.Perm.refl _) msgs rest he _ (List.mem_cons_of_mem _ (List.mem_cons_self ..))
    rw [hrun] at this
    cases this; rfl
  · rintro msgs q r hq hqw ⟨ok, t, now, hrun⟩ m hm
    simp only [Mmf.withRequest, hq] at hrun
    obtain ⟨r', h1, -, h3, h4⟩ := C52_full_matches ok t now q
    obtain rfl : r' = r := Option.some.inj (h1.symm.trans hrun)
    obtain ⟨n, ro, h6, h7⟩ := h3 m hm
    refine ⟨n, ro, h6, h7, fun tk htk => ?_⟩
    have : tk ∈ r'.sent.flatMap matchTickets := List.mem_flatMap.2 ⟨m, hm, by simp [matchTickets, h6, htk]⟩
    rw [h4] at this
    exact List.take_subset _ _ this
  · rintro q m o hqw hqt ⟨n, ro, h1, h2, h3⟩ ⟨x, rfl, -, hx, -⟩
    rw [h1] at hx
    exact ⟨x, n, ro, rfl, perm_single hx, h2, fun t ht => fits_of_seen hqt (h3 t ht)⟩

/-- **C84 (battle royale).** -/
theorem C84_royales (p : Profile) (hwf : p.pools.WF) (ts : List Ticket) (ha : ∀ t ∈ ts, t.attributes.isSome)
    (work : List (Ticket × List Str)) (hw : WorkFor p ts work) (sent : List ChunkedMmfRunRequest)
    (hs : chunkedRequest p work = some sent) (hl : sent.length < 2 ^ 31)
    (wait : Bool) (fs : List Relay.Mmf) (hfs : ∀ f ∈ fs, f.starts = true → Serves RoyaleRun sent f)
    (ls : List Relay.Label) (s : Relay.St) (hr : Relay.run wait fs (Relay.init fs) ls = some s) :
    ∀ o ∈ Relay.handed s, IsRoyale p ts o := by
  intro o ho
  obtain ⟨f, hf, hst, hof⟩ := handed_from hr ho
  exact royales_of_serves hwf ha hw hs hl (hfs f hf hst) o hof

private theorem team_of {l : List Ticket} {A B C : Ticket → Prop} (hlen : l.length = 5)
    (h1 : ∀ t ∈ (l.drop 0).take 1, A t) (h2 : ∀ t ∈ (l.drop 1).take 1, B t) (h3 : ∀ t ∈ (l.drop 2).take 3, C t) :
    ∃ a b c d e, l = [a, b, c, d, e] ∧ A a ∧ B b ∧ C c ∧ C d ∧ C e := by
  match l, hlen with
  | [a, b, c, d, e], _ =>
    exact ⟨a, b, c, d, e, rfl, h1 _ (by simp), h2 _ (by simp), h3 _ (by simp), h3 _ (by simp), h3 _ (by simp)⟩

/-- What such an MMF contributes. -/
theorem teams_of_serves {p : Profile} (hwf : p.pools.WF) {ts : List Ticket} (ha : ∀ t ∈ ts, t.attributes.isSome)
    {work : List (Ticket × List Str)} (hw : WorkFor p ts work) {sent : List ChunkedMmfRunRequest}
    (hs : chunkedRequest p work = some sent) (hl : sent.length < 2 ^ 31) {f : Relay.Mmf} (hf : Serves TeamRun sent f) :
    ∀ o ∈ f.results, IsFiveVFive p ts o := by
  refine serves_split (P := fun q m => ∃ a b : Roster, m.rosters = [("team01".toList, a), ("team02".toList, b)] ∧
      ∀ l ∈ [a.tickets, b.tickets], ∃ x y z v w, l = [x, y, z, v, w] ∧
        x ∈ poolTickets q "tank".toList ∧ y ∈ poolTickets q "healer".toList ∧
        z ∈ poolTickets q "dps".toList ∧ v ∈ poolTickets q "dps".toList ∧ w ∈ poolTickets q "dps".toList)
    hwf ha hw hs hl hf ?_ ?_ ?_
  · rintro msgs rest r he ⟨ok, t, now, hrun⟩
    have := no_request ok [] t now id (fun _ => List.Perm.refl _) msgs rest he _
      (List.mem_cons_of_mem _ (List.mem_cons_of_mem _ (List.mem_cons_self ..)))
    rw [hrun] at this
    cases this; rfl
  · rintro msgs q r hq hqw ⟨ok, t, now, hrun⟩ m hm
    simp only [Mmf.withRequest, hq] at hrun
    obtain ⟨r', h1, -, h3, h4, h5, h6⟩ := C53_complete_teams ok t now q
    obtain rfl : r' = r := Option.some.inj (h1.symm.trans hrun)
    obtain ⟨a, b, h7, h8, h9⟩ := h3 m hm
    have hp : ∀ (i w n : Nat) (pool : Str), r'.sent.flatMap (places i w) = (poolTickets q pool).take n →
        ∀ l ∈ [a.tickets, b.tickets], ∀ tk ∈ (l.drop i).take w, tk ∈ poolTickets q pool := by
      intro i w n pool h l hl tk htk
      have : tk ∈ r'.sent.flatMap (places i w) := by
        refine List.mem_flatMap.2 ⟨m, hm, ?_⟩
        unfold places
        rw [h7]
        rcases List.mem_cons.1 hl with rfl | hl
        · simp only [List.flatMap_cons, List.mem_append]; exact Or.inl htk
        · obtain rfl := List.mem_singleton.1 hl
          simp only [List.flatMap_cons, List.mem_append]; exact Or.inr (Or.inl htk)
      rw [h] at this
      exact List.take_subset _ _ this
    refine ⟨a, b, h7, fun l hl => team_of ?_ (hp _ _ _ _ h4 l hl) (hp _ _ _ _ h5 l hl) (hp _ _ _ _ h6 l hl)⟩
    rcases List.mem_cons.1 hl with rfl | hl
    · exact h8
    · obtain rfl := List.mem_singleton.1 hl; exact h9
  · rintro q m o hqw hqt ⟨a, b, h1, h2⟩ ⟨x, rfl, -, hx, -⟩
    rw [h1] at hx
    have ht : ∀ l ∈ [a.tickets, b.tickets], IsTeam p ts l := by
      intro l hl
      obtain ⟨x, y, z, v, w, e, h3, h4, h5, h6, h7⟩ := h2 l hl
      exact ⟨x, y, z, v, w, e, fits_of_seen hqt h3, fits_of_seen hqt h4, fits_of_seen hqt h5, fits_of_seen hqt h6, fits_of_seen hqt h7⟩
    exact ⟨x, a, b, rfl, hx, ht _ (List.mem_cons_self ..), ht _ (List.mem_cons_of_mem _ (List.mem_cons_self ..))⟩

/-- **C84 (5v5).** -/
theorem C84_teams (p : Profile) (hwf : p.pools.WF) (ts : List Ticket) (ha : ∀ t ∈ ts, t.attributes.isSome)
    (work : List (Ticket × List Str)) (hw : WorkFor p ts work) (sent : List ChunkedMmfRunRequest)
    (hs : chunkedRequest p work = some sent) (hl : sent.length < 2 ^ 31)
    (wait : Bool) (fs : List Relay.Mmf) (hfs : ∀ f ∈ fs, f.starts = true → Serves TeamRun sent f)
    (ls : List Relay.Label) (s : Relay.St) (hr : Relay.run wait fs (Relay.init fs) ls = some s) :
    ∀ o ∈ Relay.handed s, IsFiveVFive p ts o := by
  intro o ho
  obtain ⟨f, hf, hst, hof⟩ := handed_from hr ho
  exact teams_of_serves hwf ha hw hs hl (hfs f hf hst) o hof

/-! ### No player twice -/

theorem sub_players {a b : List (Option Match)} (h : a.Subperm b) : (a.flatMap players).Subperm (b.flatMap players) := by
  obtain ⟨l, h1, h2⟩ := h
  exact ⟨l.flatMap players, h1.flatMap_right _, h2.flatMap _⟩

theorem players_same {l : List Match} {rs : List (Option Match)} (h : List.Forall₂ SameMatch l rs) :
    (rs.flatMap players).Perm (l.flatMap matchTickets) := by
  induction h with
  | nil => exact List.Perm.refl _
  | cons h1 _ ih =>
    obtain ⟨x, rfl, -, hx, -⟩ := h1
    simp only [List.flatMap_cons]
    exact List.Perm.append (hx.flatMap_right _) ih

theorem allTickets_nodup {p q : Profile} {ts : List Ticket} (hqw : q.pools.WF) (hts : (ts.map (·.id)).Nodup)
    (hqt : ∀ n, poolTickets q n = [] ∨ ∃ pool, p.pools.load n = some pool ∧ ¬ BadTimes pool ∧ poolTickets q n = participants pool ts)
    (hdis : ∀ t n n', Fits p ts n t → Fits p ts n' t → n = n') : ((allTickets q.pools).map (·.id)).Nodup := by
  have he : allTickets q.pools = q.pools.flatMap fun e => poolTickets q e.1 := by
    unfold allTickets
    refine List.flatMap_congr fun e he => ?_
    unfold poolTickets
    rw [GoMap.load_of_mem hqw he]
  rw [he, List.map_flatMap, List.nodup_flatMap]
  refine ⟨fun e he => ?_, ?_⟩
  · rcases hqt e.1 with h | ⟨pool, -, -, h⟩
    · rw [h]; exact List.nodup_nil
    · rw [h]; exact C38_each_once pool ts hts
  · have : q.pools.Pairwise fun e e' => e.1 ≠ e'.1 := List.pairwise_map.1 hqw
    refine this.imp fun {e e'} hne => ?_
    intro i h1 h2
    obtain ⟨t, ht, rfl⟩ := List.mem_map.1 h1
    obtain ⟨t', ht', hid⟩ := List.mem_map.1 h2
    have f1 := fits_of_seen hqt ht
    have f2 := fits_of_seen hqt ht'
    have : t' = t := List.inj_on_of_nodup_map hts f2.1 f1.1 hid
    subst this
    exact hne (hdis _ _ _ f1 f2)

/-- A run in which `Run` uses no ticket of disjoint pools twice hands out none twice. -/
theorem serves_once {Run : List ChunkedMmfRunRequest → Mmf.RunRes → Prop}
    {p : Profile} (hwf : p.pools.WF) {ts : List Ticket} (ha : ∀ t ∈ ts, t.attributes.isSome)
    (hts : (ts.map (·.id)).Nodup) (hdis : ∀ t n n', Fits p ts n t → Fits p ts n' t → n = n')
    {work : List (Ticket × List Str)} (hw : WorkFor p ts work) {sent : List ChunkedMmfRunRequest}
    (hs : chunkedRequest p work = some sent) (hl : sent.length < 2 ^ 31)
    {wait : Bool} {f : Relay.Mmf} (hf : Serves Run sent f)
    {ls : List Relay.Label} {s : Relay.St} (hr : Relay.run wait [f] (Relay.init [f]) ls = some s)
    (herr : ∀ msgs rest r, getChunkedRequest msgs = some (.err, rest) → Run msgs r → r.sent = [])
    (hprof : ∀ msgs q r, getChunkedRequest msgs = some (.profile (some q), []) → ((allTickets q.pools).map (·.id)).Nodup →
      (∀ n, ((poolTickets q n).map (·.id)).Nodup) →
      (∀ n n', n ≠ n' → ∀ t ∈ poolTickets q n, ∀ t' ∈ poolTickets q n', t.id ≠ t'.id) →
      Run msgs r → ((r.sent.flatMap matchTickets).map (·.id)).Nodup) :
    (((Relay.handed s).flatMap players).map (·.id)).Nodup := by
  have h1 : (Relay.handed s).Subperm f.results := by
    refine (C43_faithful_at_most_once wait [f] ls s hr).trans ?_
    unfold returned
    cases hst : f.starts <;> simp [hst, List.Subperm.refl]
  obtain ⟨got, k, r, l, hg, hrun, hpre, hsame⟩ := hf
  have h2 : ((r.sent.flatMap matchTickets).map (·.id)).Nodup := by
    rcases request_seen hwf ha hw hs hl hg k with ⟨rest, he⟩ | ⟨q, hq, hqw, hqt⟩
    · rw [herr _ _ _ he hrun]; exact List.nodup_nil
    · refine hprof _ q r hq (allTickets_nodup hqw hts hqt hdis) (fun n => ?_) (fun n n' hne t ht t' ht' hid => ?_) hrun
      · rcases hqt n with h | ⟨pool, -, -, h⟩
        · rw [h]; exact List.nodup_nil
        · rw [h]; exact C38_each_once pool ts hts
      · have f1 := fits_of_seen hqt ht
        have f2 := fits_of_seen hqt ht'
        have : t = t' := List.inj_on_of_nodup_map hts f1.1 f2.1 hid
        subst this
        exact hne (hdis _ _ _ f1 f2)
  have h3 : ((f.results.flatMap players).map (·.id)).Nodup := by
    rw [((players_same hsame).map _).nodup_iff]
    exact h2.sublist ((hpre.sublist.flatMap _).map _)
  obtain ⟨l', h4, h5⟩ := sub_players h1
  rw [← (h4.map _).nodup_iff]
  exact h3.sublist (h5.map _)

/-- **C84 (no player twice).** If no ticket of the snapshot fits two pools, the matches
that one invoked soloduel MMF contributes never contain the same ticket id twice, within a
match or across matches. -/
theorem C84_each_player_once (p : Profile) (hwf : p.pools.WF) (ts : List Ticket) (ha : ∀ t ∈ ts, t.attributes.isSome)
    (hts : (ts.map (·.id)).Nodup) (hdis : ∀ t n n', Fits p ts n t → Fits p ts n' t → n = n')
    (work : List (Ticket × List Str)) (hw : WorkFor p ts work) (sent : List ChunkedMmfRunRequest)
    (hs : chunkedRequest p work = some sent) (hl : sent.length < 2 ^ 31)
    (wait : Bool) (f : Relay.Mmf) (hf : Serves SoloRun sent f)
    (ls : List Relay.Label) (s : Relay.St) (hr : Relay.run wait [f] (Relay.init [f]) ls = some s) :
    (((Relay.handed s).flatMap players).map (·.id)).Nodup := by
  refine serves_once hwf ha hts hdis hw hs hl hf hr ?_ ?_
  · rintro msgs rest r he ⟨ok, t, now, ord, hord, hrun⟩
    have := no_request ok t (fun _ => []) now ord hord _ rest he _ (List.mem_cons_self ..)
    rw [hrun] at this
    cases this; rfl
  · rintro msgs q r hq hn - - ⟨ok, t, now, ord, hord, hrun⟩
    simp only [Mmf.withRequest, hq] at hrun
    exact C51_disjoint_pools_partial ok t now q (ord q.pools) r (hord _) hn hrun

/-- **C84 (no player twice, battle royale).** -/
theorem C84_each_player_once_royale (p : Profile) (hwf : p.pools.WF) (ts : List Ticket) (ha : ∀ t ∈ ts, t.attributes.isSome)
    (hts : (ts.map (·.id)).Nodup) (hdis : ∀ t n n', Fits p ts n t → Fits p ts n' t → n = n')
    (work : List (Ticket × List Str)) (hw : WorkFor p ts work) (sent : List ChunkedMmfRunRequest)
    (hs : chunkedRequest p work = some sent) (hl : sent.length < 2 ^ 31)
    (wait : Bool) (f : Relay.Mmf) (hf : Serves RoyaleRun sent f)
    (ls : List Relay.Label) (s : Relay.St) (hr : Relay.run wait [f] (Relay.init [f]) ls = some s) :
    (((Relay.handed s).flatMap players).map (·.id)).Nodup := by
  refine serves_once hwf ha hts hdis hw hs hl hf hr ?_ ?_
  · rintro msgs rest r he ⟨ok, t, now, hrun⟩
    have := no_request ok t (fun _ => []) now id (fun _ => List.Perm.refl _) msgs rest he _
      (List.mem_cons_of_mem _ (List.mem_cons_self ..))
    rw [hrun] at this
    cases this; rfl
  · rintro msgs q r hq - hn - ⟨ok, t, now, hrun⟩
    simp only [Mmf.withRequest, hq] at hrun
    obtain ⟨r', h1, -, -, h4⟩ := C52_full_matches ok t now q
    obtain rfl : r' = r := Option.some.inj (h1.symm.trans hrun)
    rw [h4, List.map_take]
    exact (hn _).sublist (List.take_sublist ..)

private theorem five_split {l : List Ticket} (h : l.length = 5) :
    l = (l.drop 0).take 1 ++ (l.drop 1).take 1 ++ (l.drop 2).take 3 := by
  match l, h with
  | [a, b, c, d, e], _ => rfl

private theorem two_teams_perm {m : Match} {a b : Roster} {n n' : Str} (hm : m.rosters = [(n, a), (n', b)])
    (ha : a.tickets.length = 5) (hb : b.tickets.length = 5) :
    (matchTickets m).Perm (places 0 1 m ++ places 1 1 m ++ places 2 3 m) := by
  simp only [matchTickets, places, hm, List.flatMap_cons, List.flatMap_nil, List.append_nil]
  conv => lhs; rw [five_split ha, five_split hb]
  simp only [List.append_assoc]
  rw [List.perm_iff_count]
  intro x
  simp only [List.count_append]
  omega

private theorem teams_perm : ∀ {l : List Match}, (∀ m ∈ l, (matchTickets m).Perm (places 0 1 m ++ places 1 1 m ++ places 2 3 m)) →
    (l.flatMap matchTickets).Perm (l.flatMap (places 0 1) ++ l.flatMap (places 1 1) ++ l.flatMap (places 2 3))
  | [], _ => List.Perm.refl _
  | m :: l, h => by
    have h1 := h m (List.mem_cons_self ..)
    have h2 := teams_perm (fun m hm => h m (List.mem_cons_of_mem _ hm))
    simp only [List.flatMap_cons]
    refine (h1.append h2).trans ?_
    rw [List.perm_iff_count]
    intro x
    simp only [List.count_append]
    omega

/-- **C84 (no player twice, 5v5).** -/
theorem C84_each_player_once_teams (p : Profile) (hwf : p.pools.WF) (ts : List Ticket) (ha : ∀ t ∈ ts, t.attributes.isSome)
    (hts : (ts.map (·.id)).Nodup) (hdis : ∀ t n n', Fits p ts n t → Fits p ts n' t → n = n')
    (work : List (Ticket × List Str)) (hw : WorkFor p ts work) (sent : List ChunkedMmfRunRequest)
    (hs : chunkedRequest p work = some sent) (hl : sent.length < 2 ^ 31)
    (wait : Bool) (f : Relay.Mmf) (hf : Serves TeamRun sent f)
    (ls : List Relay.Label) (s : Relay.St) (hr : Relay.run wait [f] (Relay.init [f]) ls = some s) :
    (((Relay.handed s).flatMap players).map (·.id)).Nodup := by
  refine serves_once hwf ha hts hdis hw hs hl hf hr ?_ ?_
  · rintro msgs rest r he ⟨ok, t, now, hrun⟩
    have := no_request ok [] t now id (fun _ => List.Perm.refl _) msgs rest he _
      (List.mem_cons_of_mem _ (List.mem_cons_of_mem _ (List.mem_cons_self ..)))
    rw [hrun] at this
    cases this; rfl
  · rintro msgs q r hq - hn hd ⟨ok, t, now, hrun⟩
    simp only [Mmf.withRequest, hq] at hrun
    obtain ⟨r', h1, -, h3, h4, h5, h6⟩ := C53_complete_teams ok t now q
    obtain rfl : r' = r := Option.some.inj (h1.symm.trans hrun)
    have hp := teams_perm (l := r'.sent) fun m hm => by
      obtain ⟨a, b, e, e1, e2⟩ := h3 m hm
      exact two_teams_perm e e1 e2
    rw [(hp.map _).nodup_iff, h4, h5, h6]
    simp only [List.map_append, List.nodup_append, List.mem_append, List.map_take]
    have nd : ∀ n k, (((poolTickets q n).map (·.id)).take k).Nodup := fun n k => (hn n).sublist (List.take_sublist ..)
    have dj : ∀ n n' k k', n ≠ n' → ∀ a ∈ ((poolTickets q n).map (·.id)).take k,
        ∀ b ∈ ((poolTickets q n').map (·.id)).take k', a ≠ b := by
      intro n n' k k' hne a ha b hb
      obtain ⟨t, ht, rfl⟩ := List.mem_map.1 (List.take_subset _ _ ha)
      obtain ⟨t', ht', rfl⟩ := List.mem_map.1 (List.take_subset _ _ hb)
      exact hd n n' hne t ht t' ht'
    refine ⟨⟨nd _ _, nd _ _, dj _ _ _ _ (by decide)⟩, nd _ _, ?_⟩
    rintro a (h | h) b hb
    · exact dj _ _ _ _ (by decide) a h b hb
    · exact dj _ _ _ _ (by decide) a h b hb

/-! ### From the creating call to the match -/

/-- **C84 (players come from created tickets).** In every execution of any number of
instances, clients and faults, when instance `j` runs a round on a snapshot of its cache:
every ticket in every match the matchmaker receives from soloduel has the content of some
CreateTicket request, under the id the cache has it under, and its attributes meet the
filters of a pool of the matchmaker's profile (here: pools without a creation-time filter). -/
theorem C84_players_are_created (cd : Codec) (hl : cd.Lawful) (cfg : Config) (H : Nat)
    (evs : List Sys.Label) (st : Sys.St) (hp : ∀ l ∈ evs, l.Plausible cfg H) (hrun : Sys.run cd cfg Sys.init evs = some st)
    (j : Nat) (pre : List Ev) (m : GoMap Ticket) (hm : SnapshotOf cd cfg st j pre m)
    (p : Profile) (hwf : p.pools.WF) (hno : ∀ n pool, p.pools.load n = some pool → pool.creationTimeRangeFilter = none)
    (work : List (Ticket × List Str)) (hw : WorkFor p (m.map (·.2)) work) (sent : List ChunkedMmfRunRequest)
    (hs : chunkedRequest p work = some sent) (hlen : sent.length < 2 ^ 31)
    (wait : Bool) (fs : List Relay.Mmf) (hfs : ∀ f ∈ fs, f.starts = true → Serves SoloRun sent f)
    (ls : List Relay.Label) (s : Relay.St) (hr : Relay.run wait fs (Relay.init fs) ls = some s)
    (o : Option Match) (ho : o ∈ Relay.handed s) (ct : Ticket) (hct : ct ∈ players o) :
    ∃ c x now t, st.calls c = some x ∧ x.rpc = .create now (some t) ∧ ContentOf now t ct.id ct ∧
      (WFAttrs ⟨reqTags t, reqStrings t, reqDoubles t, none⟩ →
        ∃ n pool, p.pools.load n = some pool ∧ Meets pool ⟨reqTags t, reqStrings t, reqDoubles t, none⟩) := by
  have hb := Sys.base_run evs (Sys.base_init cd cfg H) hp st hrun
  have hmwf : m.WF := by obtain ⟨es, sn, -, h⟩ := hm; exact h.2.1
  have hattr : ∀ t ∈ m.map (·.2), t.attributes.isSome := by
    intro t ht
    obtain ⟨⟨k', t'⟩, hkt, rfl⟩ := List.mem_map.1 ht
    exact snapshot_attributes hl hb hm (GoMap.load_of_mem hmwf hkt)
  obtain ⟨x, n, ro, a, b, rfl, hro, hab, hfa, hfb⟩ :=
    C84_duels p hwf _ hattr work hw sent hs hlen wait fs hfs ls s hr o ho
  have hfit : ∃ n, Fits p (m.map (·.2)) n ct := by
    simp only [players, matchTickets, hro, List.flatMap_cons, List.flatMap_nil, List.append_nil, hab,
      List.mem_cons, List.not_mem_nil, or_false] at hct
    rcases hct with rfl | rfl
    · exact hfa
    · exact hfb
  obtain ⟨n, hct', pool, hpool, -, hin⟩ := hfit
  obtain ⟨⟨k, t'⟩, hkt, rfl⟩ := List.mem_map.1 hct'
  obtain ⟨c, x', now, t, bts, hc, hrpc, henc, hdec⟩ := snapshot_tickets_are_created hb hm (GoMap.load_of_mem hmwf hkt)
  have hcontent : ContentOf now t t'.id t' := by
    obtain ⟨ct, d, cr, h1, h2, h3⟩ := C06_stored_content cd hl cfg now t ⟨.ticket, [], bts⟩
      (by simp [createTicketQueue, henc]) Cache.empty k
    have : ct = t' := by
      have hp := congrArg KState.t (applyUpdate_proj cd Cache.empty (replicated ⟨.ticket, [], bts⟩ k) k)
      simp only [replicated, if_true] at hp
      change (applyUpdate cd Cache.empty ⟨.ticket, k, bts⟩).tickets.load k = _ at hp
      simp only [replicated] at h1
      rw [hp] at h1
      injection h1 with h1
      rw [← h1, hdec]
    subst this
    exact ⟨rfl, d, cr, h3⟩
  refine ⟨c, x', now, t, hc, hrpc, hcontent, fun hw0 => ⟨n, pool, hpool, ?_⟩⟩
  obtain ⟨-, d, cr, h1, h2, h3, h4, -⟩ := hcontent
  have hwd : WFAttrs d := ⟨((h4.map _).nodup_iff).2 hw0.1, ((h3.map _).nodup_iff).2 hw0.2⟩
  have := ((C01_membership_is_conjunction pool t' d h1 hwd (hno n pool hpool)).1).1 hin
  obtain ⟨m1, m2, m3⟩ := this
  refine ⟨fun f hf => ?_, fun f hf => ?_, fun f hf => ?_⟩
  · obtain ⟨v, hv, hr⟩ := m1 f hf
    exact ⟨v, h4.mem_iff.1 hv, hr⟩
  · exact h3.mem_iff.1 (m2 f hf)
  · rw [← h2]; exact m3 f hf

/-! ### A round -/

def duelProfile : Profile := { name := "prof".toList, pools := [("all".toList, plainPool)], extensions := [] }
def duelTickets : List Ticket := [sampleTicket, plainTicket]
def duelWork : List (Ticket × List Str) := duelTickets.map fun t => (t, ["all".toList])
def duelSent : List ChunkedMmfRunRequest := [chunkRequest duelProfile 1 [("all".toList, duelTickets)]]
def duelMatch : Match :=
  { id := Mmf.matchId Mmf.soloName [] 0
    rosters := [(Mmf.rosterName Mmf.soloName 0,
      { name := Mmf.rosterName Mmf.soloName 0, assignment := none, tickets := duelTickets,
        extensions := [("CreationTime".toList, Mmf.anyTime ⟨0, 0⟩)] })]
    extensions := Mmf.extensionsFor Mmf.soloName "prof".toList }
def duelMmf : Relay.Mmf := ⟨true, [some duelMatch], true⟩

theorem duel_serves : Serves SoloRun duelSent duelMmf := by
  refine ⟨duelSent, 1, ⟨[duelMatch], false⟩, [duelMatch], ?_, ⟨fun _ => true, [], fun _ => ⟨0, 0⟩, id, fun _ => List.Perm.refl _, ?_⟩,
    List.prefix_refl _, ?_⟩
  · refine List.Forall₂.cons ⟨_, _, rfl, rfl, rfl, rfl, List.Perm.refl _, List.Perm.refl _⟩ .nil
  · decide +kernel
  · exact .cons ⟨_, rfl, rfl, List.Perm.refl _, List.Perm.refl _⟩ .nil

theorem duelWork_ok : WorkFor duelProfile duelTickets duelWork := by
  refine ⟨by decide, ?_⟩
  have : validPools duelProfile.pools = ["all".toList] := by decide
  rw [this]
  intro w hw
  simp only [duelWork, duelTickets, List.map_cons, List.map_nil, List.mem_cons, List.not_mem_nil, or_false] at hw
  rcases hw with rfl | rfl <;> exact List.Perm.refl _

theorem duel_run : ∃ s, Relay.run false [duelMmf] (Relay.init [duelMmf])
      ([.recv 0 duelMatch.rosters] ++ upToSend 0 ++ [.hand 0]) = some s ∧ Relay.handed s = [some duelMatch] := by
  have h : (Relay.run false [duelMmf] (Relay.init [duelMmf]) ([.recv 0 duelMatch.rosters] ++ upToSend 0 ++ [.hand 0])).map
      Relay.handed = some [some duelMatch] := by decide +kernel
  exact Option.map_eq_some_iff.1 h

example : duelProfile.pools.WF ∧ (∀ t ∈ duelTickets, t.attributes.isSome) ∧ (duelTickets.map (·.id)).Nodup ∧
    WorkFor duelProfile duelTickets duelWork ∧ chunkedRequest duelProfile duelWork = some duelSent ∧
    Serves SoloRun duelSent duelMmf ∧ (∀ t n n', Fits duelProfile duelTickets n t → Fits duelProfile duelTickets n' t → n = n') ∧
    (∃ ls s, Relay.run false [duelMmf] (Relay.init [duelMmf]) ls = some s ∧ Relay.handed s = [some duelMatch]) := by
  refine ⟨by unfold GoMap.WF; decide, by decide, by decide, duelWork_ok, by decide +kernel, duel_serves, ?_, _, duel_run⟩
  have : ∀ n t, Fits duelProfile duelTickets n t → n = "all".toList := by
    rintro n t ⟨-, pool, h, -⟩
    have := GoMap.mem_of_load h
    simp only [duelProfile, List.mem_singleton, Prod.mk.injEq] at this
    exact this.1
  intro t n n' h h'
  rw [this n t h, this n' t h']

/-- Tickets `0` to `n-1` that any pool without filters admits. -/
def nTickets (n : Nat) : List Ticket := (List.range n).map fun i => { plainTicket with id := fmtNat i }

def plainProfile (names : List Str) : Profile :=
  { name := "prof".toList, pools := names.map fun n => (n, plainPool), extensions := [] }

theorem received_refl (p : Profile) (n : Nat) (c : Chunk) : Received (chunkRequest p n c) (chunkRequest p n c) :=
  ⟨_, _, rfl, rfl, rfl, rfl, List.Perm.refl _, List.Perm.refl _⟩

theorem sameMatch_refl : ∀ l : List Match, List.Forall₂ SameMatch l (l.map some)
  | [] => .nil
  | m :: l => .cons ⟨m, rfl, rfl, List.Perm.refl _, List.Perm.refl _⟩ (sameMatch_refl l)

example : ∃ f, f.starts = true ∧ f.results.length = 1 ∧
    Serves RoyaleRun [chunkRequest (plainProfile ["competitive".toList]) 1 [("competitive".toList, nTickets 150)]] f := by
  have h : (Mmf.withRequest (Mmf.battleroyale (fun _ => true) [] fun _ => ⟨0, 0⟩)
      [chunkRequest (plainProfile ["competitive".toList]) 1 [("competitive".toList, nTickets 150)]]).map
        (fun r => r.sent.length) = some 1 := by decide +kernel
  obtain ⟨r, hr, hl⟩ := Option.map_eq_some_iff.1 h
  exact ⟨⟨true, r.sent.map some, true⟩, rfl, by simpa using hl, _, 1, r, r.sent, .cons (received_refl ..) .nil,
    ⟨_, _, _, hr⟩, List.prefix_refl _, sameMatch_refl _⟩

def roleProfile : Profile := plainProfile ["tank".toList, "healer".toList, "dps".toList]
def roleSent : List ChunkedMmfRunRequest :=
  [chunkRequest roleProfile 1 [("tank".toList, nTickets 6), ("healer".toList, nTickets 6), ("dps".toList, nTickets 6)]]

example : chunkedRequest roleProfile ((nTickets 6).map fun t => (t, ["tank".toList, "healer".toList, "dps".toList])) = some roleSent ∧
    ∃ f, f.starts = true ∧ f.results.length = 1 ∧ Serves TeamRun roleSent f := by
  refine ⟨by decide +kernel, ?_⟩
  have h : (Mmf.withRequest (Mmf.teamshooter (fun _ => true) (fun _ => []) fun _ => ⟨0, 0⟩) roleSent).map
      (fun r => r.sent.length) = some 1 := by
    decide +kernel
  obtain ⟨r, hr, hl⟩ := Option.map_eq_some_iff.1 h
  exact ⟨⟨true, r.sent.map some, true⟩, rfl, by simpa using hl, _, 1, r, r.sent, .cons (received_refl ..) .nil,
    ⟨_, _, _, hr⟩, List.prefix_refl _, sameMatch_refl _⟩

end OM.Props
