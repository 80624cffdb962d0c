import Verif.Model.Frontend
import Verif.Props.Json
import Verif.Props.Handlers
/-!
# Property C112: tickets of the example's frontend get activated
-/
namespace OM.Props
open OM.Spec OM.PJ

/-! ## What a creation returns -/

theorem not_created {e : Env} (hd : e.opts.discard = false) {t : Str} {ms : List (Str × Json)} (h : JDoc (.obj ms) t)
    (hc : ∃ x ∈ ms, x.1 = "code".toList) : unmarshal (asCreated e) t = none := by
  cases hu : unmarshal (asCreated e) t with
  | none => rfl
  | some v =>
    obtain ⟨j, hj, l, rfl, hk, -⟩ := (unmarshal_iff (asCreated_iff e) t v).mp hu
    have := ((Json.read_iff t _).mpr h).symm.trans ((Json.read_iff t _).mpr hj)
    cases this
    obtain ⟨x, hx, hx1⟩ := hc
    rcases hk with hk | hk
    · rw [hd] at hk; cases hk
    · obtain ⟨f, ty, n, ⟨d, hd1, hd2, hd3⟩, hn⟩ := hk x hx
      have key : ∀ d ∈ published, d.1 = "CreateTicketResponse" → ∀ y ∈ d.2, "code".toList ≠ y.1.toList ∧ "code".toList ≠ camel y.1.toList := by
        decide +kernel
      rw [hx1] at hn
      rcases hn with hn | hn
      · exact absurd hn (key d hd1 hd2 _ hd3).1
      · exact absurd hn (key d hd1 hd2 _ hd3).2

theorem fallback_doc : ∃ ms, JDoc (.obj ms) Front.fallback ∧ ∃ x ∈ ms, x.1 = "code".toList := by
  have h : (match Json.read Front.fallback with
    | some (.obj ms) => ms.any fun x => decide (x.1 = "code".toList)
    | _ => false) = true := by decide +kernel
  cases hr : Json.read Front.fallback with
  | none => rw [hr] at h; cases h
  | some j =>
    rw [hr] at h
    cases j with
    | obj ms =>
      refine ⟨ms, (Json.read_iff _ _).mp hr, ?_⟩
      obtain ⟨x, hx, h1⟩ := List.any_eq_true.mp h
      exact ⟨x, hx, of_decide_eq_true h1⟩
    | _ => cases h

/-- **C112 (ids).** `proxyCreateTicket` returns the id of the ticket if om-core created it, and the empty
string if not, over REST as over gRPC. -/
theorem C112_ids {e : Env} (he : EnvOk e) (hd : e.opts.discard = false) (sep : Str) (hs : Ws sep) :
    (∀ id, IsText id → Front.ticketId e (.grpc (.ok id)) = id ∧ Front.ticketId e (.rest (some (Front.restBody e sep (.ok id)))) = id) ∧
    (∀ s, Front.ticketId e (.grpc (.error s)) = [] ∧ Front.ticketId e (.rest (some (Front.restBody e sep (.error s)))) = []) ∧
    Front.ticketId e (.rest none) = [] := by
  refine ⟨fun id hid => ⟨rfl, ?_⟩, fun s => ⟨rfl, ?_⟩, rfl⟩
  · obtain ⟨t, h1, h2⟩ := C111_id_returns he sep hs id hid
    simp only [Front.ticketId, Front.restBody, h1, Option.getD_some, h2]
  · simp only [Front.ticketId, Front.restBody]
    rw [marshal, Option.bind_some]
    by_cases ht : (Front.statusJson s).textOk = true
    · have : unmarshal (asCreated e) (Json.write false sep (Front.statusJson s)) = none :=
        not_created hd (Json.write_doc false hs ?_ ht) ⟨_, List.mem_cons_self, rfl⟩
      · rw [if_pos ht, Option.getD_some, this]
        rfl
      · obtain ⟨neg, i, hn, -⟩ := number_fmtInt (s.code : Int)
        exact ⟨⟨neg, i, [], 0, hn⟩, trivial, trivial, trivial⟩
    · obtain ⟨ms, h1, h2⟩ := fallback_doc
      rw [if_neg ht, Option.getD_none, not_created hd h1 h2]
      rfl

/-! ## The frontend's loop -/

/-- The creations that have returned, in the order in which their ids got into the channel. -/
def replies : List Front.Lbl → List Front.Reply
  | [] => []
  | .created r :: ls => r :: replies ls
  | _ :: ls => replies ls

theorem replies_append (a b : List Front.Lbl) : replies (a ++ b) = replies a ++ replies b := by
  induction a with
  | nil => rfl
  | cons l a ih => cases l <;> simp [replies, ih]

structure FrontInv (ids : List Str) (s : Front.St) : Prop where
  cur : ∃ q0 ls, (Mm.St.init q0).run ls = some s.cur ∧ s.past.flatten ++ (q0 ++ Mm.pushed ls) = ids
  past : ∀ c ∈ s.past, 0 < c.length ∧ c.length ≤ 500

theorem front_step {e : Env} {ids : List Str} {s s' : Front.St} {l : Front.Lbl} (h : FrontInv ids s) (hs : s.step e l = some s') :
    FrontInv (ids ++ (replies [l]).map (Front.ticketId e)) s' := by
  obtain ⟨⟨q0, ls, hr, hi⟩, hp⟩ := h
  have inner : ∀ {x : Mm.Lbl} {c : Mm.St}, s.cur.step x = some c →
      (Mm.St.init q0).run (ls ++ [x]) = some c := by
    intro x c hc
    rw [Mm.run_append, hr, Option.bind_some, Mm.St.run, hc]
    rfl
  cases l with
  | created r =>
    simp only [Front.St.step, Option.map_eq_some_iff] at hs
    obtain ⟨c, hc, rfl⟩ := hs
    refine ⟨⟨q0, _, inner hc, ?_⟩, hp⟩
    rw [← hi, Mm.pushed_append]
    simp [Mm.pushed, replies]
  | inner x =>
    have hx : ∃ c, s.cur.step x = some c ∧ s' = { s with cur := c } ∧ Mm.pushed [x] = [] := by
      cases x with
      | push id => simp [Front.St.step] at hs
      | _ =>
        simp only [Front.St.step, Option.map_eq_some_iff] at hs
        obtain ⟨c, hc, rfl⟩ := hs
        exact ⟨c, hc, rfl, rfl⟩
    obtain ⟨c, hc, rfl, hx⟩ := hx
    refine ⟨⟨q0, _, inner hc, ?_⟩, hp⟩
    rw [Mm.pushed_append, hx, ← hi]
    simp [replies]
  | again =>
    simp only [Front.St.step] at hs
    split at hs
    · rename_i hpc
      cases hs
      obtain ⟨h1, -, -, h4, -⟩ := C63_batches q0 ls s.cur hr
      refine ⟨⟨s.cur.queue, [], rfl, ?_⟩, ?_⟩
      · rw [← hi, ← h4 hpc]
        simp [replies, Mm.pushed]
      · intro c hc
        rcases List.mem_append.1 hc with hc | hc
        · exact hp c hc
        · exact h1 c hc
    · cases hs

theorem front_inv {e : Env} (evs : List Front.Lbl) : ∀ {s s' : Front.St} {ids : List Str}, FrontInv ids s → s.run e evs = some s' →
    FrontInv (ids ++ (replies evs).map (Front.ticketId e)) s' := by
  induction evs with
  | nil => intro s s' ids h hs; cases hs; simpa [replies] using h
  | cons l evs ih =>
    intro s s' ids h hs
    rw [Front.St.run, Option.bind_eq_some_iff] at hs
    obtain ⟨s1, h1, h2⟩ := hs
    have := ih (front_step h h1) h2
    rwa [List.append_assoc, ← List.map_append, ← replies_append] at this

/-- The activations that om-core queues for the frontend's calls. -/
def activations (cfg : Config) (calls : List (List Str)) : List StateUpdate :=
  calls.flatMap fun c => match activeStateQueue cfg .activate c with
    | .ok us => us
    | .error _ => []

theorem regex_of_wellFormed {id : Str} (h : WellFormedId id) : RegexMatches id := by
  obtain ⟨a, b, rfl, ha, hb, -, -⟩ := h
  exact ⟨[], a, b, [], by simp, ha, hb⟩

theorem count_activations (cfg : Config) (calls : List (List Str)) (h : ∀ c ∈ calls, ∃ us, activeStateQueue cfg .activate c = .ok us) (id : Str)
    (hid : WellFormedId id) : (activations cfg calls).count ⟨.activate, id, []⟩ = calls.flatten.count id := by
  induction calls with
  | nil => rfl
  | cons c calls ih =>
    obtain ⟨us, hu⟩ := h c (by simp)
    have ih := ih fun c hc => h c (List.mem_cons_of_mem _ hc)
    unfold activations at ih ⊢
    rw [List.flatMap_cons, List.flatten_cons, List.count_append, List.count_append, ih, hu, C15_valid_ids_sent cfg .activate c us hu]
    congr 1
    have hinj : Function.Injective fun id : Str => (⟨.activate, id, []⟩ : StateUpdate) := fun a b hab => congrArg StateUpdate.key hab
    rw [List.count_map_of_injective _ _ hinj, List.count_filter (by simpa using regex_of_wellFormed hid)]

/-- **C112.** In every execution of the example's frontend, whichever creations fail: every call is one
that om-core takes; each ticket created is activated by exactly one call, once it is no longer in the
channel or in the batch being gathered; and nothing but created tickets is activated. -/
theorem C112_each_activated_once (e : Env) (cfg : Config) (hc : 500 ≤ cfg.maxUpdates) (evs : List Front.Lbl) (s : Front.St)
    (hr : Front.St.init.run e evs = some s)
    (hids : ∀ r ∈ replies evs, Front.ticketId e r = [] ∨ WellFormedId (Front.ticketId e r)) :
    (∀ c ∈ s.calls, ∃ us, activeStateQueue cfg .activate c = .ok us) ∧
    (∀ u ∈ activations cfg s.calls, WellFormedId u.key ∧ u = ⟨.activate, u.key, []⟩) ∧
    ∃ gathering : List Str, gathering.length ≤ 500 ∧ (s.cur.pc = .returned → gathering = []) ∧ ∀ id, WellFormedId id →
      (activations cfg s.calls).count ⟨.activate, id, []⟩ + gathering.count id + s.cur.queue.count id =
        ((replies evs).map (Front.ticketId e)).count id := by
  have h0 : FrontInv [] Front.St.init := ⟨⟨[], [], rfl, rfl⟩, by simp [Front.St.init]⟩
  obtain ⟨⟨q0, ls, hrun, hi⟩, hp⟩ := front_inv evs h0 hr
  rw [List.nil_append] at hi
  obtain ⟨h1, -, -, -⟩ := C63_batches q0 ls s.cur hrun
  have hinv := Mm.inv hrun
  have h3 := hinv.split
  have hsplit : s.calls.flatten ++ Mm.pend s.cur ++ s.cur.queue = (replies evs).map (Front.ticketId e) := by
    rw [← hi, ← h3, Front.St.calls]
    simp
  have hok : ∀ c ∈ s.calls, ∃ us, activeStateQueue cfg .activate c = .ok us := by
    intro c hc'
    have hlen : 0 < c.length ∧ c.length ≤ 500 := by
      rcases List.mem_append.1 hc' with hc' | hc'
      · exact hp c hc'
      · exact h1 c hc'
    refine (C14_batch_size cfg .activate c).2 ⟨?_, by omega⟩
    rintro rfl
    exact absurd hlen.1 (by simp)
  refine ⟨hok, fun u hu => ?_, Mm.pend s.cur, ?_, fun h => by rw [Mm.pend, h, if_neg (by decide)], fun id hid => ?_⟩
  · obtain ⟨c, hc', hu⟩ := List.mem_flatMap.mp hu
    obtain ⟨us, hus⟩ := hok c hc'
    rw [hus] at hu
    have hu' : u ∈ us := hu
    rw [C15_valid_ids_sent cfg .activate c us hus] at hu'
    obtain ⟨id, hid, rfl⟩ := List.mem_map.mp hu'
    obtain ⟨hid, hm⟩ := List.mem_filter.mp hid
    refine ⟨?_, rfl⟩
    have : id ∈ (replies evs).map (Front.ticketId e) := by
      rw [← hsplit]
      exact List.mem_append_left _ (List.mem_append_left _ (List.mem_flatten.mpr ⟨c, hc', hid⟩))
    obtain ⟨r, hr', rfl⟩ := List.mem_map.mp this
    rcases hids r hr' with h | h
    · rw [h] at hm
      have hm : RegexMatches [] := by simpa using hm
      obtain ⟨pre, a, b, post, he, -⟩ := hm
      exact absurd (congrArg List.length he) (by simp)
    · exact h
  · have := hinv.room
    unfold Mm.pend Mm.maxActivationsPerCall at *
    split <;> first | exact this | exact Nat.zero_le _
  · rw [count_activations cfg _ hok id hid, ← hsplit]
    simp [List.count_append, Nat.add_assoc]

theorem text_of_wellFormed {id : Str} (h : WellFormedId id) : IsText id := by
  obtain ⟨a, b, rfl, ha, hb, -, -⟩ := h
  have hd : ∀ {a : Str}, Digits a → ∀ c ∈ a, c.toNat < 0x80 := by
    intro a ha c hc
    have : ∀ c ∈ "0123456789".toList, c.toNat < 0x80 := by decide
    exact this c (ha c hc)
  refine isText_ascii fun c hc => ?_
  rcases List.mem_append.1 hc with hc | hc
  · exact hd ha c hc
  · rcases List.mem_cons.1 hc with rfl | hc
    · decide
    · exact hd hb c hc

/-- **C112 (over REST).** The calls arrive at om-core as they were made. -/
theorem C112_calls_arrive {e : Env} (he : EnvOk e) (sep : Str) (hs : Ws sep) (evs : List Front.Lbl) (s : Front.St)
    (hr : Front.St.init.run e evs = some s)
    (hids : ∀ r ∈ replies evs, Front.ticketId e r = [] ∨ WellFormedId (Front.ticketId e r)) :
    ∀ c ∈ s.calls, Gw.requestOf [] (decodeBody (asIds e) (postBody (idsJson e) sep c)) = .ok c := by
  intro c hc
  have h0 : FrontInv [] Front.St.init := ⟨⟨[], [], rfl, rfl⟩, by simp [Front.St.init]⟩
  obtain ⟨⟨q0, ls, hrun, hi⟩, -⟩ := front_inv evs h0 hr
  rw [List.nil_append] at hi
  refine ((C111_requests_arrive he sep hs).2.1 c).1 fun id hid => ?_
  have : id ∈ (replies evs).map (Front.ticketId e) := by
    rw [← hi, ← (Mm.inv hrun).split]
    rcases List.mem_append.1 hc with hc | hc
    · exact List.mem_append_left _ (List.mem_flatten.mpr ⟨c, hc, hid⟩)
    · exact List.mem_append_right _ (List.mem_append_left _ (List.mem_append_left _ (List.mem_flatten.mpr ⟨c, hc, hid⟩)))
  obtain ⟨r, hr', rfl⟩ := List.mem_map.mp this
  rcases hids r hr' with h | h
  · rw [h]; exact ⟨[], rfl⟩
  · exact text_of_wellFormed h

/-- Two tickets are created, a third creation fails in between; all three ids go into one call. -/
def frontRun : List Front.Lbl :=
  [.created (.grpc (.ok "1-0".toList)), .created (.rest none), .created (.grpc (.ok "2-0".toList))] ++ List.replicate 9 (.inner .main)

example : (Front.St.init.run sampleEnv frontRun).map (fun s => (s.calls, s.cur.queue, s.cur.pc)) =
    some ([["1-0".toList, [], "2-0".toList]], [], .returned) := by decide +kernel
example : ∀ r ∈ replies frontRun, Front.ticketId sampleEnv r = [] ∨ WellFormedId (Front.ticketId sampleEnv r) := by
  intro r hr
  simp only [frontRun, replies, List.cons_append, List.nil_append, List.mem_cons] at hr
  rcases hr with rfl | rfl | rfl | hr
  · exact .inr ⟨['1'], ['0'], rfl, by simp [Digits], by simp [Digits], by decide, by decide⟩
  · exact .inl rfl
  · exact .inr ⟨['2'], ['0'], rfl, by simp [Digits], by simp [Digits], by decide, by decide⟩
  · simp [List.replicate, replies] at hr

end OM.Props
