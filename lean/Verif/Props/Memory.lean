import Verif.Props.Cache
import Verif.Props.Redis
import Verif.Props.Lifecycle
import Mathlib.Data.List.Nodup
import Mathlib.Data.List.Perm.Subperm
/-!
# Property C144: what an instance keeps in memory
-/
namespace OM.Props
open OM.Spec

private theorem keys_le {V : Type} {m : GoMap V} (wf : m.WF) {l : List Str} (h : ∀ k v, m.load k = some v → k ∈ l) : m.length ≤ l.length := by
  have : m.keys.length ≤ l.length :=
    (List.Nodup.subperm wf fun k hk => by
      obtain ⟨v, hv⟩ := Option.isSome_iff_exists.1 (GoMap.load_isSome_iff.2 hk)
      exact h k v hv).length_le
  simpa [GoMap.keys] using this

private theorem le_keys {V : Type} {m : GoMap V} {l : List Str} (hl : l.Nodup) (h : ∀ k ∈ l, (m.load k).isSome) : l.length ≤ m.length := by
  have : l.length ≤ m.keys.length := (List.Nodup.subperm hl fun k hk => GoMap.load_isSome_iff.1 (h k hk)).length_le
  simpa [GoMap.keys] using this

/-! ## Tickets -/

/-- A ticket in the cache is one that an update brought. -/
private theorem from_update (cd : Codec) (cfg : Config) (es : List Ev) (hv : ValidEvs cd cfg Cache.empty es) (k : Str) (t : Ticket)
    (h : (runEvs cd cfg Cache.empty es).tickets.load k = some t) :
    ∃ u ∈ updatesOf es, u.cmd = .ticket ∧ u.key = k ∧ t = { cd.decT u.value with id := k } := by
  induction es using List.reverseRecOn with
  | nil => simp [runEvs, Cache.empty] at h
  | append_singleton es e ih =>
    obtain ⟨hv1, hv2, -⟩ := validEvs_append.1 hv
    rw [runEvs_append] at h
    have hu : updatesOf (es ++ [e]) = updatesOf es ++ updatesOf [e] := by simp [updatesOf]
    rw [hu]
    have old : (runEvs cd cfg Cache.empty es).tickets.load k = some t →
        ∃ u ∈ updatesOf es ++ updatesOf [e], u.cmd = .ticket ∧ u.key = k ∧ t = { cd.decT u.value with id := k } := by
      intro h
      obtain ⟨u, hm, hu⟩ := ih hv1 h
      exact ⟨u, List.mem_append_left _ hm, hu⟩
    cases e with
    | upd u =>
      have hp := congrArg KState.t (applyUpdate_proj cd (runEvs cd cfg Cache.empty es) u k)
      simp only [proj] at hp
      have h' : (applyUpdate cd (runEvs cd cfg Cache.empty es) u).tickets.load k = some t := h
      rw [hp] at h'
      by_cases hk : k = u.key
      · rw [if_pos hk] at h'
        cases hc : u.cmd <;> simp only [hc] at h'
        · exact ⟨u, by simp [updatesOf], hc, hk.symm, (Option.some.inj h').symm⟩
        all_goals exact old h'
      · rw [if_neg hk] at h'; exact old h'
    | expire cy =>
      have h' : (expire cfg cy (runEvs cd cfg Cache.empty es)).tickets.load k = some t := h
      rw [expire_tickets hv2] at h'
      split at h'
      · cases h'
      · exact old (Option.filter_eq_some_iff.1 h').1

/-- **C144 (tickets).** The tickets in memory are never more than those that were created with an expiration at or after the beginning
`T` of the last expiration cycle, and those created since: tickets that have expired take no memory after the next cycle. -/
theorem C144_tickets_bounded_partial (cd : Codec) (cfg : Config) (es : List Ev) (cy : Cycle) (us : List StateUpdate)
    (hv : ValidEvs cd cfg Cache.empty (es ++ .expire cy :: us.map .upd)) (T : Int) (hT : ∀ k, T ≤ cy.tix k) :
    (runEvs cd cfg Cache.empty (es ++ .expire cy :: us.map .upd)).tickets.length ≤
      (updatesOf es).countP (fun u => decide (u.cmd = .ticket ∧ T ≤ asTime (cd.decT u.value).expirationTime)) +
      us.countP (fun u => decide (u.cmd = .ticket)) := by
  have wf := WF_runEvs (cd := cd) (cfg := cfg) WF_empty (es ++ .expire cy :: us.map .upd)
  rw [List.countP_eq_length_filter, List.countP_eq_length_filter, ← List.length_append,
    ← List.length_map (f := fun u : StateUpdate => u.key)]
  refine keys_le wf.1 fun k t ht => ?_
  have hmid : ∀ us : List StateUpdate, ValidEvs cd cfg Cache.empty (es ++ .expire cy :: us.map .upd) →
      (runEvs cd cfg Cache.empty (es ++ .expire cy :: us.map .upd)).tickets.load k = some t →
      (∃ u ∈ us, u.cmd = .ticket ∧ u.key = k) ∨ (expire cfg cy (runEvs cd cfg Cache.empty es)).tickets.load k = some t := by
    intro us
    induction us using List.reverseRecOn with
    | nil => intro _ h; rw [runEvs_append] at h; exact .inr h
    | append_singleton us u ih =>
      intro hv h
      have he : es ++ .expire cy :: (us ++ [u]).map Ev.upd = (es ++ .expire cy :: us.map Ev.upd) ++ [.upd u] := by simp
      rw [he] at hv h
      obtain ⟨hv1, -⟩ := validEvs_append.1 hv
      rw [runEvs_append] at h
      have h' : (applyUpdate cd (runEvs cd cfg Cache.empty (es ++ .expire cy :: us.map Ev.upd)) u).tickets.load k = some t := h
      have hp := congrArg KState.t (applyUpdate_proj cd (runEvs cd cfg Cache.empty (es ++ .expire cy :: us.map Ev.upd)) u k)
      simp only [proj] at hp
      rw [hp] at h'
      have old : (runEvs cd cfg Cache.empty (es ++ .expire cy :: us.map Ev.upd)).tickets.load k = some t →
          (∃ v ∈ us ++ [u], v.cmd = .ticket ∧ v.key = k) ∨ (expire cfg cy (runEvs cd cfg Cache.empty es)).tickets.load k = some t := by
        intro h
        rcases ih hv1 h with ⟨v, hm, hv⟩ | h
        · exact .inl ⟨v, List.mem_append_left _ hm, hv⟩
        · exact .inr h
      by_cases hk : k = u.key
      · rw [if_pos hk] at h'
        cases hc : u.cmd <;> simp only [hc] at h'
        · exact .inl ⟨u, by simp, hc, hk.symm⟩
        all_goals exact old h'
      · rw [if_neg hk] at h'; exact old h'
  rw [List.mem_map]
  rcases hmid us hv ht with ⟨u, hu, hc, hk⟩ | h
  · exact ⟨u, List.mem_append_right _ (List.mem_filter.2 ⟨hu, by simp [hc]⟩), hk⟩
  · obtain ⟨hv1, hv2, -⟩ := validEvs_append.1 hv
    rw [expire_tickets hv2] at h
    split at h
    · cases h
    · obtain ⟨h1, h2⟩ := Option.filter_eq_some_iff.1 h
      obtain ⟨u, hu, hc, hk, hte⟩ := from_update cd cfg es hv1 k t h1
      refine ⟨u, List.mem_append_left _ (List.mem_filter.2 ⟨hu, ?_⟩), hk⟩
      have hT' := hT k
      simp only [ticketExpired, Bool.not_eq_true', decide_eq_false_iff_not] at h2
      rw [hte] at h2
      simp only [decide_eq_true_eq]
      exact ⟨hc, by simp only at h2; omega⟩

/-! ## Ids and assignments -/

/-- Nobody has put `k` into the pools since it was created or taken out of them. -/
def Out (us : List StateUpdate) (k : Str) : Prop := (markers us k).getLast? = some .ticket ∨ (markers us k).getLast? = some .deactivate

/-- Clocks of cycles show seconds, and Redis ids milliseconds (C32): until the year 50000 or so they are behind. -/
def Older (es : List Ev) : Prop := ∀ cy, Ev.expire cy ∈ es → ∀ i : RId, 1000000000000 ≤ i.1 → cy.inact i.fmt ≤ i.1 ∧ cy.asg i.fmt ≤ i.1

private theorem marks (cd : Codec) (cfg : Config) (httl : 0 ≤ cfg.ttl) (es : List Ev) (hv : ValidEvs cd cfg Cache.empty es) (hb : Older es)
    (i : RId) (h1 : 1000000000000 ≤ i.1) (h2 : i.1 < 2 ^ 63) :
    ((runEvs cd cfg Cache.empty es).inactive.load i.fmt).isSome = true ↔ Out (updatesOf es) i.fmt := by
  induction es using List.reverseRecOn with
  | nil => simp [runEvs, Cache.empty, Out, markers, updatesOf]
  | append_singleton es e ih =>
    obtain ⟨hv1, hv2, -⟩ := validEvs_append.1 hv
    have ih := ih hv1 (fun cy hc => hb cy (by simp [hc]))
    rw [runEvs_append]
    cases e with
    | expire cy =>
      have hu : updatesOf (es ++ [.expire cy]) = updatesOf es := by simp [updatesOf]
      rw [hu, ← ih]
      show ((expire cfg cy (runEvs cd cfg Cache.empty es)).inactive.load i.fmt).isSome = true ↔ _
      rw [expire_inactive hv2, C32_redis_inactive_never_ages cfg cy i h2 httl (hb cy (by simp) i h1).1]
      simp
    | upd u =>
      have hu : updatesOf (es ++ [.upd u]) = updatesOf es ++ [u] := by simp [updatesOf]
      rw [hu]
      have hp := congrArg KState.i (applyUpdate_proj cd (runEvs cd cfg Cache.empty es) u i.fmt)
      simp only [proj] at hp
      show ((applyUpdate cd (runEvs cd cfg Cache.empty es) u).inactive.load i.fmt).isSome = true ↔ _
      have hm : markers (updatesOf es ++ [u]) i.fmt = markers (updatesOf es) i.fmt ++
          if u.key = i.fmt ∧ (u.cmd = .ticket ∨ u.cmd = .activate ∨ u.cmd = .deactivate) then [u.cmd] else [] := by
        unfold markers
        rw [List.filter_append, List.map_append]
        congr 1
        split <;> rename_i hc <;> simp [hc]
      rw [hp, Out, hm]
      by_cases hk : i.fmt = u.key
      · cases hc : u.cmd <;> simp [← hk, ih, Out]
      · have hk' : ¬ u.key = i.fmt := fun h => hk h.symm
        simp only [hk, hk', if_false, false_and, List.append_nil]
        exact ih

/-- **C144 (ids are kept for ever).** Of tickets with ids of Redis, an instance keeps in memory the id of every one that was not in the
pools last, matched or expired or not, however long ago. -/
theorem C144_ids_kept (cd : Codec) (cfg : Config) (httl : 0 ≤ cfg.ttl) (es : List Ev) (hv : ValidEvs cd cfg Cache.empty es) (hb : Older es)
    (is : List RId) (hnd : is.Nodup) (h1 : ∀ i ∈ is, 1000000000000 ≤ i.1 ∧ i.1 < 2 ^ 63) (ho : ∀ i ∈ is, Out (updatesOf es) i.fmt) :
    is.length ≤ (runEvs cd cfg Cache.empty es).inactive.length := by
  rw [← List.length_map (f := RId.fmt)]
  refine le_keys (hnd.map fun a b h => RId.fmt_injective h) fun k hk => ?_
  obtain ⟨i, hi, rfl⟩ := List.mem_map.1 hk
  exact (marks cd cfg httl es hv hb i (h1 i hi).1 (h1 i hi).2).2 (ho i hi)

/-- **C144 (assignments are kept for ever).** So is the assignment of every such ticket that has got one. -/
theorem C144_assignments_kept (cd : Codec) (cfg : Config) (httl : 0 ≤ cfg.ttl) (hadd : 0 ≤ cfg.addTtl) (es : List Ev)
    (hv : ValidEvs cd cfg Cache.empty es) (hb : Older es)
    (is : List RId) (hnd : is.Nodup) (h1 : ∀ i ∈ is, 1000000000000 ≤ i.1 ∧ i.1 < 2 ^ 63) (ha : ∀ i ∈ is, assigns (updatesOf es) i.fmt ≠ []) :
    is.length ≤ (runEvs cd cfg Cache.empty es).assignments.length := by
  rw [← List.length_map (f := RId.fmt)]
  refine le_keys (hnd.map fun a b h => RId.fmt_injective h) fun k hk => ?_
  obtain ⟨i, hi, rfl⟩ := List.mem_map.1 hk
  have hf : AsgFresh cfg es i.fmt := by
    intro cy hcy
    have hn := (hb cy hcy i (h1 i hi).1).2
    have := (C32_redis_ids_age_out_partial cfg cy i (h1 i hi).2).2
    by_contra hlt
    have ha : asgAged cfg cy i.fmt = true := by simp only [asgAged, decide_eq_true_eq]; omega
    have := this.1 ha
    omega
  rw [(asg_run cd cfg i.fmt es Cache.empty Cache.empty hv (fun _ => id)).2 hf rfl, (C24_life_cycle cd (updatesOf es) i.fmt).2.2.2,
    assignment]
  simp only [Option.isSome_map, List.getLast?_isSome]
  exact ha i hi

/-! ## Without bound -/

/-- `n` tickets are created and get an assignment, at one time. -/
private def exUs (n : Nat) : List StateUpdate :=
  (List.range n).flatMap fun j => [⟨.ticket, RId.fmt (1600000000000, j), []⟩, ⟨.assign, RId.fmt (1600000000000, j), []⟩]

/-- A cycle three years later. -/
private def exLate (c : Cache) : Cycle :=
  let cy : Cycle := ⟨c.inactive.keys, [], c.assignments.keys, fun _ => 1700000000, fun _ => 1700000000000000000, fun _ => 1700000000⟩
  { cy with visT := (runOps c (inactivePassOps Config.default cy)).tickets.keys }

private def exAll (n : Nat) : List Ev :=
  (exUs n).map .upd ++ [.expire (exLate (runEvs toyCodec Config.default Cache.empty ((exUs n).map .upd)))]

/-- C144 in full: after a cycle at time `T`, an instance keeps at most a ticket, an id and an assignment for each update of a ticket whose
id Redis has given out within the times for which tickets and assignments are to be kept. -/
def C144_statement : Prop :=
  ∀ (cd : Codec) (cfg : Config) (es : List Ev) (cy : Cycle) (T : Int) (issued : StateUpdate → RId),
    ValidEvs cd cfg Cache.empty (es ++ [.expire cy]) → (∀ u ∈ updatesOf es, u.key = (issued u).fmt) →
    (∀ k, cy.inact k = T ∧ cy.tix k = T * nsPerSec ∧ cy.asg k = T) →
    let c := runEvs cd cfg Cache.empty (es ++ [.expire cy])
    c.tickets.length + c.inactive.length + c.assignments.length ≤
      3 * (updatesOf es).countP fun u => decide (T - cfg.ttl - cfg.addTtl ≤ (issued u).1 / 1000)

/-- **C144 (the leak).** For every `n` there is a history in which all tickets have been created, and have expired, three years
ago (with a TTL of ten minutes), and an instance that has applied it keeps `n` ids and `n` assignments. -/
theorem C144_memory_grows (n : Nat) :
    ∃ es cy, ValidEvs toyCodec Config.default Cache.empty (es ++ [.expire cy]) ∧
      (∀ u ∈ updatesOf es, ∃ i : RId, i.1 = 1600000000000 ∧ u.key = i.fmt) ∧
      (∀ k, cy.inact k = 1700000000 ∧ cy.tix k = 1700000000 * nsPerSec ∧ cy.asg k = 1700000000) ∧
      (let c := runEvs toyCodec Config.default Cache.empty (es ++ [.expire cy])
       (∀ k, c.tickets.load k = none) ∧ n ≤ c.inactive.length ∧ n ≤ c.assignments.length) := by
  have hups : ∀ l : List StateUpdate, updatesOf (l.map .upd) = l := by
    intro l
    induction l with
    | nil => rfl
    | cons a l ih => simp only [updatesOf, List.map_cons, List.filterMap_cons] at ih ⊢; rw [ih]
  have hvu : ∀ (l : List StateUpdate) (c : Cache), ValidEvs toyCodec Config.default c (l.map .upd) := by
    intro l
    induction l with
    | nil => intro c; trivial
    | cons a l ih => intro c; exact ⟨trivial, ih _⟩
  have hv : ValidEvs toyCodec Config.default Cache.empty (exAll n) := by
    refine validEvs_append.2 ⟨hvu _ _, ⟨?_, trivial⟩⟩
    exact ⟨List.Perm.refl _, List.Perm.refl _, List.Perm.refl _⟩
  have hus : updatesOf (exAll n) = exUs n := by
    have : updatesOf (exAll n) = updatesOf ((exUs n).map .upd) := by simp [exAll, updatesOf]
    rw [this, hups]
  have hb : Older (exAll n) := by
    intro cy hcy i hi
    simp only [exAll, List.mem_append, List.mem_map, reduceCtorEq, and_false, exists_false, false_or, List.mem_singleton, Ev.expire.injEq] at hcy
    subst hcy
    exact ⟨by simp only [exLate]; omega, by simp only [exLate]; omega⟩
  let is : List RId := (List.range n).map fun j => (1600000000000, j)
  have hnd : is.Nodup := List.Nodup.map (fun a b h => (Prod.mk.inj h).2) List.nodup_range
  have h1 : ∀ i ∈ is, 1000000000000 ≤ i.1 ∧ i.1 < 2 ^ 63 := by
    intro i hi
    obtain ⟨j, -, rfl⟩ := List.mem_map.1 hi
    simp
  have hmem : ∀ i ∈ is, (⟨.ticket, i.fmt, []⟩ : StateUpdate) ∈ exUs n ∧ (⟨.assign, i.fmt, []⟩ : StateUpdate) ∈ exUs n := by
    intro i hi
    obtain ⟨j, hj, rfl⟩ := List.mem_map.1 hi
    exact ⟨List.mem_flatMap.2 ⟨j, hj, by simp⟩, List.mem_flatMap.2 ⟨j, hj, by simp⟩⟩
  have hcmd : ∀ u ∈ exUs n, (u.cmd = .ticket ∨ u.cmd = .assign) ∧ ∃ j, u.key = RId.fmt (1600000000000, j) := by
    intro u hu
    obtain ⟨j, -, hj⟩ := List.mem_flatMap.1 hu
    simp only [List.mem_cons, List.not_mem_nil, or_false] at hj
    rcases hj with rfl | rfl <;> exact ⟨by simp, j, rfl⟩
  have ho : ∀ i ∈ is, Out (updatesOf (exAll n)) i.fmt := by
    intro i hi
    rw [hus]
    left
    have hin : Cmd.ticket ∈ markers (exUs n) i.fmt := by
      refine List.mem_map.2 ⟨_, List.mem_filter.2 ⟨(hmem i hi).1, by simp⟩, rfl⟩
    have hall : ∀ x ∈ markers (exUs n) i.fmt, x = .ticket := by
      intro x hx
      obtain ⟨u, hu, rfl⟩ := List.mem_map.1 hx
      obtain ⟨hu1, hu2⟩ := List.mem_filter.1 hu
      simp only [decide_eq_true_eq] at hu2
      rcases (hcmd u hu1).1 with h | h
      · exact h
      · rw [h] at hu2; simp at hu2
    cases hl : (markers (exUs n) i.fmt).getLast? with
    | none => rw [List.getLast?_eq_none_iff] at hl; rw [hl] at hin; cases hin
    | some x => rw [hall x (List.mem_of_getLast? hl)]
  have ha : ∀ i ∈ is, assigns (updatesOf (exAll n)) i.fmt ≠ [] := by
    intro i hi h
    rw [hus] at h
    have : ([] : Str) ∈ assigns (exUs n) i.fmt := List.mem_map.2 ⟨_, List.mem_filter.2 ⟨(hmem i hi).2, by simp⟩, rfl⟩
    rw [h] at this; cases this
  have hlen : is.length = n := by simp [is]
  refine ⟨(exUs n).map .upd, _, hv, ?_, ?_, ?_, ?_, ?_⟩
  · intro u hu
    rw [hups] at hu
    obtain ⟨j, hj⟩ := (hcmd u hu).2
    exact ⟨_, rfl, hj⟩
  · intro k; exact ⟨rfl, by simp only [exLate]; decide, rfl⟩
  · intro k
    show (runEvs toyCodec Config.default Cache.empty (exAll n)).tickets.load k = none
    rw [exAll, runEvs_append]
    show (expire Config.default (exLate _) _).tickets.load k = none
    obtain ⟨-, hv2, -⟩ := validEvs_append.1 hv
    rw [expire_tickets hv2]
    split
    · rfl
    · rw [Option.filter_eq_none_iff]
      intro t ht
      obtain ⟨u, -, -, -, hte⟩ := from_update toyCodec Config.default _ (hvu _ _) k t ht
      have h0 : asTime (toyCodec.decT u.value).expirationTime = 1000 * nsPerSec := by simp only [toyCodec]; decide +kernel
      rw [hte]
      simp only [ticketExpired, exLate, h0]
      decide
  · exact hlen ▸ C144_ids_kept toyCodec Config.default (by decide) _ hv hb is hnd h1 ho
  · exact hlen ▸ C144_assignments_kept toyCodec Config.default (by decide) (by decide) _ hv hb is hnd h1 ha

/-- **C144 is false of the code.** -/
theorem C144_memory_bounded_refuted : ¬ C144_statement := by
  intro h
  obtain ⟨es, cy, hv, hi, hc, -, h1, -⟩ := C144_memory_grows 1
  classical
  let issued : StateUpdate → RId := fun u => if hu : ∃ i : RId, i.1 = 1600000000000 ∧ u.key = i.fmt then hu.choose else (0, 0)
  have hiss : ∀ u ∈ updatesOf es, (issued u).1 = 1600000000000 ∧ u.key = (issued u).fmt := by
    intro u hu
    have hx := hi u hu
    simp only [issued, dif_pos hx]
    exact hx.choose_spec
  have h2 := h toyCodec Config.default es cy 1700000000 issued hv (fun u hu => (hiss u hu).2) hc
  have h3 : (updatesOf es).countP (fun u => decide ((1700000000 : Int) - Config.default.ttl - Config.default.addTtl ≤ (issued u).1 / 1000)) = 0 := by
    rw [List.countP_eq_zero]
    intro u hu
    rw [(hiss u hu).1]
    decide
  simp only at h2 h1
  omega

/-- An instance that has had three tickets, of which one has expired and one came after the cycle: it keeps two. -/
example : let es : List Ev := [.upd ⟨.ticket, kA, []⟩, .upd ⟨.ticket, kB, []⟩]
    let cy : Cycle := ⟨[kA, kB], [kA], [], fun _ => 901, fun _ => 901 * nsPerSec, fun _ => 901⟩
    ValidEvs toyCodec Config.default Cache.empty (es ++ .expire cy :: [⟨.ticket, "901-1".toList, []⟩].map .upd) ∧
    (runEvs toyCodec Config.default Cache.empty (es ++ .expire cy :: [⟨.ticket, "901-1".toList, []⟩].map .upd)).tickets.length = 2 := by
  refine ⟨⟨trivial, trivial, ⟨?_, ?_, ?_⟩, trivial, trivial⟩, ?_⟩ <;> decide +kernel

end OM.Props
