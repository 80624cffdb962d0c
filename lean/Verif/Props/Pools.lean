import Verif.Model.Pools
import Verif.Props.EndToEnd
import Verif.Props.Config
/-! # Property C126: how long an instance goes on -/
namespace OM.Props
open OM.Sys OM.Spec

/-- What an instance has learned from the stream. -/
def heard (x : Inst) : List StateUpdate := updatesOf x.hist ++ x.inbox

/-- The steps of the system in a run with pools. -/
def plainSys : List PLabel → List Label
  | [] => []
  | .sys l _ :: ls => l :: plainSys ls
  | .pollFail _ :: ls => plainSys ls

/-! ## Runs with pools are runs without -/

private theorem pstep_refines {cd : Codec} {cfg : Config} {lim : Int} {p p' : PSt} {l : PLabel}
    (h : p.step cd cfg lim l = some p') : run cd cfg p.st (plainSys [l]) = some p'.st := by
  cases l with
  | sys l b =>
    simp only [PSt.step] at h
    obtain ⟨s, hs, h⟩ := Option.bind_eq_some_iff.1 h
    have : p'.st = s := by
      split at h
      · cases h; rfl
      · split at h
        · split at h <;> cases h; rfl
        · split at h <;> cases h; rfl
        · cases h; rfl
    simp [plainSys, run, hs, this]
  | pollFail i =>
    simp only [PSt.step] at h
    split at h
    · split at h <;> cases h
      rfl
    · cases h

/-- **C126 (nothing new).** What instances with pools do, they can do without: all that is proved of every execution of
the system (C69, C70, C79, C83, C95, C96 …) holds of theirs. -/
theorem C126_refines (cd : Codec) (cfg : Config) (lim : Int) (p p' : PSt) (ls : List PLabel)
    (h : p.run cd cfg lim ls = some p') : run cd cfg p.st (plainSys ls) = some p'.st := by
  induction ls generalizing p with
  | nil => cases h; rfl
  | cons l ls ih =>
    simp only [PSt.run] at h
    obtain ⟨q, hq, h⟩ := Option.bind_eq_some_iff.1 h
    have e : plainSys (l :: ls) = plainSys [l] ++ plainSys ls := by cases l <;> rfl
    rw [e, run_append, pstep_refines hq]
    exact ih q h

/-! ## Deaf -/

private theorem insts_outgoing (cfg : Config) (s : St) (j : Nat) (env : SendEnv) (e : OutEv) (i : Nat) :
    ((outgoing cfg s j env e).insts i).up = (s.insts i).up ∧ heard ((outgoing cfg s j env e).insts i) = heard (s.insts i) := by
  rcases outgoing_cases cfg s j env e with h | h <;> rw [h]
  · simp only [hold, St.setInst]; split
    · rename_i hj; rw [hj]; exact ⟨rfl, rfl⟩
    · exact ⟨rfl, rfl⟩
  · simp only [flushed, St.give, St.setInst]; split
    · rename_i hj; rw [hj]; exact ⟨rfl, rfl⟩
    · exact ⟨rfl, rfl⟩

private theorem heard_step {cd : Codec} {cfg : Config} {s s' : St} {l : Label} (i : Nat) (h : step cd cfg s l = some s')
    (hr : reader l ≠ some i) (hst : l ≠ .start i) :
    (s'.insts i).up = false ∨ ((s'.insts i).up = (s.insts i).up ∧ heard (s'.insts i) = heard (s.insts i)) := by
  have hkill : ∀ (t : St) j, ((t.kill j).insts i).up = false ∨
      (((t.kill j).insts i).up = (t.insts i).up ∧ heard ((t.kill j).insts i) = heard (t.insts i)) := by
    intro t j
    simp only [St.kill]
    split
    · exact .inl rfl
    · exact .inr ⟨rfl, rfl⟩
  cases l with
  | call c j rpc =>
    simp only [step] at h
    split at h <;> cases h
    exact .inr ⟨rfl, rfl⟩
  | submit c env =>
    simp only [step] at h
    split at h
    · cases h
    · split at h
      · cases h
      · split at h <;> cases h
        exact .inr (insts_outgoing cfg _ _ env _ i)
  | timeout j env =>
    simp only [step] at h
    split at h <;> cases h
    exact .inr (insts_outgoing cfg _ _ env _ i)
  | finish c order =>
    simp only [step] at h
    split at h
    · cases h
    · split at h
      · obtain ⟨o, -, rfl⟩ := Option.map_eq_some_iff.1 h
        exact .inr ⟨rfl, rfl⟩
      · cases h
  | poll j =>
    have hj : i ≠ j := fun e => hr (by rw [e]; rfl)
    simp only [step] at h
    split at h
    · split at h <;> cases h
      · exact hkill s j
      · simp [St.setInst, if_neg hj]
    · cases h
  | pollLag j k =>
    have hj : i ≠ j := fun e => hr (by rw [e]; rfl)
    simp only [step] at h
    split at h
    · split at h <;> cases h
      · exact hkill s j
      · simp [St.setInst, if_neg hj]
    · cases h
  | apply j =>
    simp only [step] at h
    split at h
    · split at h
      · cases h
      · rename_i hin
        cases h
        simp only [St.setInst]
        split
        · rename_i hj
          subst hj
          refine .inr ⟨rfl, ?_⟩
          simp only [heard, hin, updatesOf_append]
          simp [updatesOf]
        · exact .inr ⟨rfl, rfl⟩
    · cases h
  | expire j cy =>
    simp only [step] at h
    split at h
    · split at h
      · cases h
        simp only [St.setInst]
        split
        · rename_i hj
          subst hj
          refine .inr ⟨rfl, ?_⟩
          simp only [heard, updatesOf_append]
          simp [updatesOf]
        · exact .inr ⟨rfl, rfl⟩
      · cases h
    · cases h
  | crash j =>
    simp only [step] at h
    split at h <;> cases h
    exact hkill s j
  | crashMid j env k =>
    simp only [step] at h
    split at h <;> cases h
    exact hkill _ j
  | start j =>
    have hj : i ≠ j := fun e => hst (by rw [e])
    simp only [step] at h
    split at h <;> cases h
    simp [St.setInst, if_neg hj]

/-- Instance `i` is not restarted. -/
def NotRestarted (i : Nat) (ls : List PLabel) : Prop := ∀ b, PLabel.sys (.start i) b ∉ ls

/-- What a step does to the counters of an instance that is not restarted. -/
private theorem pstep_counts {cd : Codec} {cfg : Config} {lim : Int} {p p' : PSt} {l : PLabel} (i : Nat)
    (h : p.step cd cfg lim l = some p') (hst : ∀ b, l ≠ .sys (.start i) b) :
    (p.reads i ≤ p'.reads i ∧ p.writes i ≤ p'.writes i) ∧
    (∀ l' b, l = .sys l' b → (reader l' = some i → full lim (p.reads i) = false) ∧
      (sender cfg p.st l' = some i → full lim (p.writes i) = false)) ∧
    (0 < lim → ((p.reads i : Int) ≤ lim → (p'.reads i : Int) ≤ lim) ∧ ((p.writes i : Int) ≤ lim → (p'.writes i : Int) ≤ lim)) := by
  have hb : ∀ (f : Nat → Nat) j, f i ≤ bump f j i := by intro f j; unfold bump; split <;> omega
  have hb' : ∀ (f : Nat → Nat) j, full lim (f j) = false → 0 < lim → (f i : Int) ≤ lim → (bump f j i : Int) ≤ lim := by
    intro f j hf h0 h1
    unfold bump
    split
    · rename_i e
      subst e
      simp only [full, h0, true_and, decide_eq_false_iff_not] at hf
      push_cast
      omega
    · exact h1
  cases l with
  | sys l b =>
    simp only [PSt.step] at h
    obtain ⟨s, hs, h⟩ := Option.bind_eq_some_iff.1 h
    split at h
    · rename_i j _
      have hj : i ≠ j := fun e => hst b (by rw [e])
      cases h
      simp only [if_neg hj]
      refine ⟨⟨Nat.le_refl _, Nat.le_refl _⟩, ?_, fun _ => ⟨id, id⟩⟩
      rintro l' b' e
      cases e
      exact ⟨fun e => (by cases e), fun e => (by cases e)⟩
    · split at h
      · rename_i j hr
        split at h <;> cases h
        rename_i hf
        rw [Bool.not_eq_true] at hf
        refine ⟨⟨hb _ _, Nat.le_refl _⟩, ?_, fun h0 => ⟨hb' _ _ hf h0, id⟩⟩
        rintro l' b' e
        cases e
        refine ⟨fun e => ?_, fun e => ?_⟩
        · rw [hr] at e; cases e; exact hf
        · cases l <;> first | (cases hr; done) | cases e
      · rename_i j hr hse
        split at h <;> cases h
        rename_i hf
        rw [Bool.not_eq_true] at hf
        refine ⟨⟨Nat.le_refl _, ?_⟩, ?_, fun h0 => ⟨id, fun h1 => ?_⟩⟩
        · dsimp only; split
          · exact Nat.le_refl _
          · exact hb _ _
        · rintro l' b' e
          cases e
          refine ⟨fun e => ?_, fun e => ?_⟩
          · rw [hr] at e; cases e
          · rw [hse] at e; cases e; exact hf
        · dsimp only; split
          · exact h1
          · exact hb' _ _ hf h0 h1
      · rename_i hr hse
        cases h
        refine ⟨⟨Nat.le_refl _, Nat.le_refl _⟩, ?_, fun _ => ⟨id, id⟩⟩
        rintro l' b' e
        cases e
        refine ⟨fun e => ?_, fun e => ?_⟩
        · rw [hr] at e; cases e
        · rw [hse] at e; cases e
  | pollFail j =>
    simp only [PSt.step] at h
    split at h
    · split at h <;> cases h
      rename_i hf
      rw [Bool.not_eq_true] at hf
      exact ⟨⟨hb _ _, Nat.le_refl _⟩, (fun _ _ e => by cases e), fun h0 => ⟨hb' _ _ hf h0, id⟩⟩
    · cases h

private theorem full_mono {lim : Int} {a b : Nat} (h : full lim a = true) (hab : a ≤ b) : full lim b = true := by
  simp only [full, decide_eq_true_eq] at h ⊢
  omega

/-- **C126 (deaf).** Once an instance has read OM_REDIS_POOL_MAX_ACTIVE times it learns nothing any more, whatever
happens, until its process ends: what it has heard of the stream stays as it is. -/
theorem C126_deaf (cd : Codec) (cfg : Config) (lim : Int) (hlim : 0 < lim) (p p' : PSt) (i : Nat) (ls : List PLabel)
    (hf : lim ≤ p.reads i) (hns : NotRestarted i ls) (h : p.run cd cfg lim ls = some p') :
    (p'.st.insts i).up = false ∨ heard (p'.st.insts i) = heard (p.st.insts i) := by
  have key : (p'.st.insts i).up = false ∨ ((p'.st.insts i).up = (p.st.insts i).up ∧ heard (p'.st.insts i) = heard (p.st.insts i)) := by
    have hf' : full lim (p.reads i) = true := by simp [full, hlim, hf]
    clear hf
    induction ls generalizing p with
    | nil => cases h; exact .inr ⟨rfl, rfl⟩
    | cons l ls ih =>
      simp only [PSt.run] at h
      obtain ⟨q, hq, h⟩ := Option.bind_eq_some_iff.1 h
      have hl : ∀ b, l ≠ .sys (.start i) b := fun b e => hns b (by rw [e]; simp)
      obtain ⟨⟨c1, -⟩, c2, -⟩ := pstep_counts i hq hl
      have hq' := ih q (fun b hb => hns b (List.mem_cons_of_mem _ hb)) h (full_mono hf' c1)
      have hone : (q.st.insts i).up = false ∨ ((q.st.insts i).up = (p.st.insts i).up ∧ heard (q.st.insts i) = heard (p.st.insts i)) := by
        cases l with
        | sys l b =>
          have hs := pstep_refines hq
          simp only [plainSys, run] at hs
          obtain ⟨s, hs, e⟩ := Option.bind_eq_some_iff.1 hs
          cases e
          refine heard_step i hs (fun e => ?_) (fun e => hl b (by rw [e]))
          rw [(c2 l b rfl).1 e] at hf'
          cases hf'
        | pollFail j =>
          simp only [PSt.step] at hq
          split at hq
          · split at hq <;> cases hq
            exact .inr ⟨rfl, rfl⟩
          · cases hq
      rcases hq' with hq' | ⟨e1, e2⟩
      · exact .inl hq'
      · rcases hone with hone | ⟨e3, e4⟩
        · exact .inl (e1.trans hone)
        · exact .inr ⟨e1.trans e3, e2.trans e4⟩
  rcases key with h | ⟨-, h⟩
  · exact .inl h
  · exact .inr h

/-! ## Mute -/

private theorem outgoing_recv_hold {cfg : Config} {s : St} {i : Nat} {env : SendEnv} {r : Req}
    (h : ¬ (((s.insts i).pending.length + 1 : Nat) : Int) ≥ cfg.outThreshold) :
    outgoing cfg s i env (.recv r) = hold s i ((s.insts i).pending ++ [r]) := by
  unfold outgoing
  simp only [outStep]
  rw [if_neg (by simpa using h)]
  exact give_nil _

private theorem outgoing_timeout_hold {cfg : Config} {s : St} {i : Nat} {env : SendEnv} (h : (s.insts i).pending = []) :
    outgoing cfg s i env .timeout = hold s i [] := by
  unfold outgoing
  simp only [outStep, OutSt.flush, h]
  exact give_nil _

/-- Call `c`, if it is at instance `i`, has had no answer. -/
private def Unanswered (i c : Nat) (s : St) : Prop :=
  ∀ x, s.calls c = some x → x.inst = i → x.got = [] ∧ (x.updates = [] ∨ x.outcome = none ∨ x.outcome = some .gone)

private theorem unanswered_hold {i c : Nat} {s : St} (h : Unanswered i c s) (j : Nat) (b : List Req) : Unanswered i c (hold s j b) := h

private theorem unanswered_flushed {i c : Nat} {s : St} (h : Unanswered i c s) (cfg : Config) (j : Nat) (env : SendEnv) (b : List Req)
    (hb : ∀ r ∈ b, r.caller = c → ∀ x, s.calls c = some x → x.inst ≠ i) : Unanswered i c (flushed cfg s j env b) := by
  intro x hx hi
  simp only [flushed, St.give, St.setInst] at hx
  obtain ⟨y, hy, rfl⟩ := Option.map_eq_some_iff.1 hx
  dsimp only at hi ⊢
  obtain ⟨h1, h2⟩ := h y hy hi
  refine ⟨?_, h2⟩
  rw [h1, List.nil_append]
  have : ((b.map Req.caller).zip (redisSend cfg env s.stream (b.map Req.update)).2).filter (fun d => decide (d.1 = c)) = [] := by
    rw [List.filter_eq_nil_iff]
    rintro ⟨d, r⟩ hd
    have := (List.of_mem_zip hd).1
    obtain ⟨q, hq, rfl⟩ := List.mem_map.1 this
    simp only [decide_eq_true_eq]
    intro e
    exact hb q hq e y hy hi
  rw [this]
  rfl

private theorem unanswered_kill {i c : Nat} {s : St} (h : Unanswered i c s) (j : Nat) : Unanswered i c (s.kill j) := by
  intro x hx hi
  simp only [St.kill] at hx
  obtain ⟨y, hy, rfl⟩ := Option.map_eq_some_iff.1 hx
  split at hi <;> split
  all_goals first
    | exact ⟨(h y hy hi).1, .inr (.inr rfl)⟩
    | exact h y hy hi

private theorem unanswered_step {cd : Codec} {cfg : Config} {H : Nat} {i c : Nat} {s s' : St} {l : Label} (hb : Base cd cfg H s)
    (h : Unanswered i c s) (hs : step cd cfg s l = some s') (hse : sender cfg s l ≠ some i) : Unanswered i c s' := by
  -- the requests of another instance are of other calls
  have hother : ∀ j, j ≠ i → ∀ r ∈ (s.insts j).pending, r.caller = c → ∀ x, s.calls c = some x → x.inst ≠ i := by
    intro j hj r hr e x hx hi
    obtain ⟨y, hy, hyi, -⟩ := hb.pend j r hr
    rw [e, hx] at hy
    cases hy
    exact hj (hyi.symm.trans hi)
  cases l with
  | call d j rpc =>
    simp only [step] at hs
    split at hs
    · cases hs
      intro x hx hi
      simp only [St.setCall] at hx
      split at hx
      · cases hq : rpc.queue cd cfg with
        | ok us => rw [hq] at hx; cases hx; exact ⟨rfl, .inr (.inl rfl)⟩
        | error e => rw [hq] at hx; cases hx; exact ⟨rfl, .inl rfl⟩
      · exact h x hx hi
    · cases hs
  | submit d env =>
    simp only [step] at hs
    split at hs
    · cases hs
    · rename_i x hx
      split at hs
      · cases hs
      · rename_i u rest hto
        split at hs
        · rename_i hg
          cases hs
          have h' : Unanswered i c (s.setCall d { x with todo := rest }) := by
            intro y hy hi
            simp only [St.setCall] at hy
            split at hy
            · rename_i e
              cases hy
              exact h x (by rw [e]; exact hx) hi
            · exact h y hy hi
          by_cases ht : (((s.insts x.inst).pending.length + 1 : Nat) : Int) ≥ cfg.outThreshold
          · have hj : x.inst ≠ i := by
              intro e
              apply hse
              simp only [sender, hx, Option.bind_some]
              rw [if_pos ht, e]
            rcases outgoing_cases cfg (s.setCall d { x with todo := rest }) x.inst env (.recv ⟨d, u⟩) with e | e <;> rw [e]
            · exact unanswered_hold h' _ _
            · refine unanswered_flushed h' _ _ _ _ ?_
              intro r hr e y hy
              simp only [held, St.setCall] at hr
              have hyx : ∃ z, s.calls c = some z ∧ z.inst = y.inst := by
                simp only [St.setCall] at hy
                split at hy
                · rename_i e'; cases hy; exact ⟨x, by rw [e']; exact hx, rfl⟩
                · exact ⟨y, hy, rfl⟩
              obtain ⟨z, hz, hzi⟩ := hyx
              rw [← hzi]
              rcases List.mem_append.1 hr with hr | hr
              · exact hother _ hj r hr e z hz
              · simp only [List.mem_singleton] at hr
                subst hr
                dsimp only at e
                rw [← e, hx] at hz
                cases hz
                exact hj
          · have : outgoing cfg (s.setCall d { x with todo := rest }) x.inst env (.recv ⟨d, u⟩) = _ :=
              outgoing_recv_hold ht
            rw [this]
            exact unanswered_hold h' _ _
        · cases hs
  | timeout j env =>
    simp only [step] at hs
    split at hs
    · cases hs
      by_cases hp : (s.insts j).pending = []
      · rw [outgoing_timeout_hold hp]
        exact unanswered_hold h _ _
      · have hj : j ≠ i := by
          intro e
          apply hse
          simp only [sender]
          rw [if_neg hp, e]
        rcases outgoing_cases cfg s j env .timeout with e | e <;> rw [e]
        · exact unanswered_hold h _ _
        · exact unanswered_flushed h _ _ _ _ (hother j hj)
    · cases hs
  | finish d order =>
    simp only [step] at hs
    split at hs
    · cases hs
    · rename_i x hx
      split at hs
      · rename_i hg
        obtain ⟨o, -, rfl⟩ := Option.map_eq_some_iff.1 hs
        intro y hy hi
        simp only [St.setCall] at hy
        split at hy
        · rename_i e
          cases hy
          obtain ⟨h1, -⟩ := h x (by rw [e]; exact hx) hi
          refine ⟨h1, .inl ?_⟩
          have := hg.2.2
          rw [h1] at this
          exact List.length_eq_zero_iff.1 this.symm
        · exact h y hy hi
      · cases hs
  | poll j =>
    simp only [step] at hs
    split at hs
    · split at hs <;> cases hs
      · exact unanswered_kill h j
      · exact h
    · cases hs
  | pollLag j k =>
    simp only [step] at hs
    split at hs
    · split at hs <;> cases hs
      · exact unanswered_kill h j
      · exact h
    · cases hs
  | apply j =>
    simp only [step] at hs
    split at hs
    · split at hs <;> cases hs
      exact h
    · cases hs
  | expire j cy =>
    simp only [step] at hs
    split at hs
    · split at hs <;> cases hs
      exact h
    · cases hs
  | crash j =>
    simp only [step] at hs
    split at hs <;> cases hs
    exact unanswered_kill h j
  | crashMid j env k =>
    simp only [step] at hs
    split at hs <;> cases hs
    exact unanswered_kill (s := { s with stream := _ }) h j
  | start j =>
    simp only [step] at hs
    split at hs <;> cases hs
    exact h

/-- **C126 (mute).** Once an instance has sent OM_REDIS_POOL_MAX_ACTIVE batches, no call that arrives at it and needs
the store ever returns: its client waits until the process ends. -/
theorem C126_mute (cd : Codec) (cfg : Config) (lim : Int) (hlim : 0 < lim) (H : Nat) (ls0 ls : List PLabel) (p p' : PSt)
    (hp : ∀ l ∈ plainSys (ls0 ++ ls), l.Plausible cfg H) (h0 : PSt.init.run cd cfg lim ls0 = some p) (i : Nat)
    (hf : lim ≤ p.writes i) (hns : NotRestarted i ls) (h : p.run cd cfg lim ls = some p')
    (c : Nat) (hnew : p.st.calls c = none) (x : Call) (hx : p'.st.calls c = some x) (hi : x.inst = i) (hu : x.updates ≠ []) :
    x.outcome = none ∨ x.outcome = some .gone := by
  have happ : ∀ a b, plainSys (a ++ b) = plainSys a ++ plainSys b := by
    intro a b
    induction a with
    | nil => rfl
    | cons l a ih => cases l <;> simp [plainSys, ih]
  rw [happ] at hp
  have hb : Base cd cfg H p.st := base_run _ (base_init cd cfg H) (fun l hl => hp l (List.mem_append_left _ hl)) _
    (C126_refines cd cfg lim _ _ ls0 h0)
  have hun : Unanswered i c p.st := fun x hx => by rw [hnew] at hx; cases hx
  have hf' : full lim (p.writes i) = true := by simp [full, hlim, hf]
  have hp' : ∀ l ∈ plainSys ls, l.Plausible cfg H := fun l hl => hp l (List.mem_append_right _ hl)
  clear hp h0 hnew hf
  have key : Unanswered i c p'.st := by
    induction ls generalizing p with
    | nil => cases h; exact hun
    | cons l ls ih =>
      simp only [PSt.run] at h
      obtain ⟨q, hq, h⟩ := Option.bind_eq_some_iff.1 h
      have hl : ∀ b, l ≠ .sys (.start i) b := fun b e => hns b (by rw [e]; simp)
      obtain ⟨⟨-, c1⟩, c2, -⟩ := pstep_counts i hq hl
      have e : plainSys (l :: ls) = plainSys [l] ++ plainSys ls := happ [l] ls
      rw [e] at hp'
      have hb' := base_run _ hb (fun l hl => hp' l (List.mem_append_left _ hl)) _ (pstep_refines hq)
      refine ih q (fun b hb => hns b (List.mem_cons_of_mem _ hb)) h hb' ?_ (full_mono hf' c1)
        fun l hl => hp' l (List.mem_append_right _ hl)
      cases l with
      | sys l b =>
        have hs := pstep_refines hq
        simp only [plainSys, run] at hs
        obtain ⟨s, hs, e⟩ := Option.bind_eq_some_iff.1 hs
        cases e
        refine unanswered_step hb hun hs fun e => ?_
        rw [(c2 l b rfl).2 e] at hf'
        cases hf'
      | pollFail j =>
        simp only [PSt.step] at hq
        split at hq
        · split at hq <;> cases hq
          exact hun
        · cases hq
  rcases (key x hx hi).2 with h | h
  · exact absurd h hu
  · exact h

/-! ## They do run out -/

private theorem outgoing_timeout_flush {cfg : Config} {s : St} {i : Nat} {env : SendEnv} (h : (s.insts i).pending ≠ []) :
    outgoing cfg s i env .timeout = flushed cfg s i env (s.insts i).pending := by
  rcases outgoing_cases cfg s i env .timeout with e | e
  · exfalso
    have h1 : ((outgoing cfg s i env .timeout).insts i).pending = (s.insts i).pending := by rw [e]; simp [hold, St.setInst, held]
    have h2 : ((outgoing cfg s i env .timeout).insts i).pending = [] := by
      have hl : 0 < (s.insts i).pending.length := List.length_pos_iff.2 h
      unfold outgoing
      simp only [outStep, OutSt.flush, gt_iff_lt, hl, if_true]
      rw [deliver_eq_zip (by rw [redisSend_length]; simp)]
      simp [St.give, St.setInst]
    exact h (h1.symm.trans h2)
  · exact e

private def aCall : Rpc := .setState .deactivate ["1-1".toList]
private def itsUpdate : StateUpdate := ⟨.deactivate, "1-1".toList, []⟩

/-- A call arrives, and its batch is sent. -/
private theorem batch {cd : Codec} {lim : Int} (p : PSt) (i c : Nat) (hup : (p.st.insts i).up = true)
    (hpe : (p.st.insts i).pending = []) (hc : p.st.calls c = none) (hf : full lim (p.writes i) = false) :
    ∃ p', p.run cd Config.default lim [.sys (.call c i aCall) false, .sys (.submit c (okEnv 1)) false, .sys (.timeout i (okEnv 1)) false] = some p' ∧
      p'.reads = p.reads ∧ p'.writes = bump p.writes i ∧ (∀ j, (p'.st.insts j).up = (p.st.insts j).up) ∧
      (∀ j, heard (p'.st.insts j) = heard (p.st.insts j)) ∧ (p'.st.insts i).pending = [] ∧
      (∀ d, d ≠ c → p.st.calls d = none → p'.st.calls d = none) ∧
      p'.st.stream = (redisSend Config.default (okEnv 1) p.st.stream [itsUpdate]).1 := by
  have hq : aCall.queue cd Config.default = .ok [itsUpdate] := rfl
  generalize hx : (⟨i, aCall, [itsUpdate], [itsUpdate], [], none, p.st.stream.entries.length⟩ : Call) = x
  have hs1 : step cd Config.default p.st (.call c i aCall) = some (p.st.setCall c x) := by
    simp [step, hup, hc, hq, hx]
  generalize hg1 : p.st.setCall c x = s1 at hs1
  have hi1 : ∀ j, s1.insts j = p.st.insts j := by intro j; rw [← hg1]; rfl
  have hc1 : s1.calls c = some x := by rw [← hg1]; simp [St.setCall]
  have hp1 : p.step cd Config.default lim (.sys (.call c i aCall) false) = some { p with st := s1 } := by
    simp only [PSt.step, hs1, Option.bind_some, reader, sender]
  generalize hx2 : ({ x with todo := [] } : Call) = x2
  have hs2 : step cd Config.default s1 (.submit c (okEnv 1)) = some (hold (s1.setCall c x2) i [⟨c, itsUpdate⟩]) := by
    have hg : x.outcome.isNone = true ∧ (s1.insts x.inst).pending.length < (okEnv 1).cmds.length := by
      subst hx; rw [hi1]; simp [hpe, okEnv]
    subst hx2 hx
    simp only [step, hc1]
    refine (if_pos hg).trans ?_
    rw [outgoing_recv_hold]
    · change some (hold _ i ((s1.insts i).pending ++ _)) = _
      rw [hi1, hpe]; rfl
    · change ¬ ((((s1.insts i).pending.length + 1 : Nat) : Int) ≥ 50)
      rw [hi1, hpe]; decide
  have hse : sender Config.default s1 (.submit c (okEnv 1)) = none := by
    have hxi : x.inst = i := by subst hx; rfl
    simp only [sender, hc1, Option.bind_some, hxi, hi1, hpe]
    rfl
  generalize hg2 : hold (s1.setCall c x2) i [⟨c, itsUpdate⟩] = s2 at hs2
  have hp2 : ({ p with st := s1 } : PSt).step cd Config.default lim (.sys (.submit c (okEnv 1)) false) = some { p with st := s2 } := by
    simp only [PSt.step, hs2, Option.bind_some, reader, hse]
  have hpe2 : (s2.insts i).pending = [⟨c, itsUpdate⟩] := by rw [← hg2]; simp [hold, St.setInst]
  have hi2 : ∀ j, (s2.insts j).up = (p.st.insts j).up ∧ heard (s2.insts j) = heard (p.st.insts j) := by
    intro j
    rw [← hg2]
    simp only [hold, St.setInst]
    split
    · rename_i e; subst e; rw [← hi1 j]; exact ⟨rfl, rfl⟩
    · exact ⟨congrArg Inst.up (hi1 j), congrArg heard (hi1 j)⟩
  have hst2 : s2.stream = p.st.stream := by rw [← hg2, ← hg1]; rfl
  have hcd : ∀ d, d ≠ c → p.st.calls d = none → s2.calls d = none := by
    intro d hd h0
    rw [← hg2, ← hg1]
    simp only [hold, St.setInst, St.setCall, if_neg hd, h0]
  have hs3 : step cd Config.default s2 (.timeout i (okEnv 1)) = some (flushed Config.default s2 i (okEnv 1) [⟨c, itsUpdate⟩]) := by
    have hg : (s2.insts i).up = true ∧ (s2.insts i).pending.length ≤ (okEnv 1).cmds.length := by
      rw [(hi2 i).1, hpe2]; exact ⟨hup, by simp [okEnv]⟩
    simp only [step, if_pos hg]
    rw [outgoing_timeout_flush (by rw [hpe2]; simp), hpe2]
  generalize hg3 : flushed Config.default s2 i (okEnv 1) [⟨c, itsUpdate⟩] = s3 at hs3
  have hse3 : sender Config.default s2 (.timeout i (okEnv 1)) = some i := by
    simp only [sender, hpe2]
    rfl
  have hp3 : ({ p with st := s2 } : PSt).step cd Config.default lim (.sys (.timeout i (okEnv 1)) false) =
      some ⟨s3, p.reads, bump p.writes i⟩ := by
    simp only [PSt.step, hs3, Option.bind_some, reader, hse3, hf]
    rfl
  refine ⟨⟨s3, p.reads, bump p.writes i⟩, ?_, rfl, rfl, ?_, ?_, ?_, ?_, ?_⟩
  · simp only [PSt.run, hp1, hp2, hp3, Option.bind_some]
  · intro j
    rw [← (hi2 j).1, ← hg3]
    simp only [flushed, St.give, St.setInst]
    split
    · rename_i e; subst e; rfl
    · rfl
  · intro j
    rw [← (hi2 j).2, ← hg3]
    simp only [flushed, St.give, St.setInst]
    split
    · rename_i e; subst e; rfl
    · rfl
  · rw [← hg3]; simp [flushed, St.give, St.setInst]
  · intro d hd h0
    rw [← hg3]
    simp only [flushed, St.give, St.setInst]
    rw [hcd d hd h0]
    rfl
  · rw [← hg3, ← hst2]; rfl

private theorem prun_append (cd : Codec) (cfg : Config) (lim : Int) (p : PSt) (a b : List PLabel) :
    p.run cd cfg lim (a ++ b) = (p.run cd cfg lim a).bind fun q => q.run cd cfg lim b := by
  induction a generalizing p with
  | nil => rfl
  | cons l a ih =>
    simp only [List.cons_append, PSt.run]
    cases p.step cd cfg lim l with
    | none => rfl
    | some q => exact ih q

private theorem batches (cd : Codec) (lim : Int) (hlim : 0 < lim) : ∀ n : Nat, (n : Int) ≤ lim →
    ∃ ls p, PSt.init.run cd Config.default lim ls = some p ∧ (∀ l ∈ plainSys ls, l.Plausible Config.default 1600000000000) ∧
      p.writes 0 = n ∧ (p.st.insts 0).up = true ∧ (p.st.insts 0).pending = [] ∧ ∀ d, n ≤ d → p.st.calls d = none
  | 0, _ => ⟨[.sys (.start 0) false], _, rfl, by simp [plainSys, Label.Plausible], rfl, rfl, rfl, fun _ _ => rfl⟩
  | n + 1, hn => by
    obtain ⟨ls, p, h1, h2, h3, h4, h5, h6⟩ := batches cd lim hlim n (by omega)
    obtain ⟨p', g1, -, g3, g4, -, g6, g7, -⟩ := batch (cd := cd) (lim := lim) p 0 n h4 h5 (h6 n (Nat.le_refl _))
      (by simp only [full, h3, decide_eq_false_iff_not]; omega)
    refine ⟨ls ++ [.sys (.call n 0 aCall) false, .sys (.submit n (okEnv 1)) false, .sys (.timeout 0 (okEnv 1)) false], p',
      by rw [prun_append, h1]; exact g1, ?_, ?_, by rw [g4]; exact h4, g6, fun d hd => g7 d (by omega) (h6 d (by omega))⟩
    · have happ : ∀ a b, plainSys (a ++ b) = plainSys a ++ plainSys b := by
        intro a b
        induction a with
        | nil => rfl
        | cons l a ih => cases l <;> simp [plainSys, ih]
      rw [happ]
      intro l hl
      rcases List.mem_append.1 hl with hl | hl
      · exact h2 l hl
      · simp only [plainSys, List.mem_cons, List.not_mem_nil, or_false] at hl
        rcases hl with rfl | rfl | rfl
        · trivial
        · exact okEnv_plausible 1
        · exact okEnv_plausible 1
    · rw [g3]; simp [bump, h3]

/-- An instance that is up can, without a restart, come to have applied all the stream holds. -/
def Hears (cd : Codec) (cfg : Config) (lim : Int) (H : Nat) : Prop :=
  ∀ (ls : List PLabel) (p : PSt), (∀ l ∈ plainSys ls, l.Plausible cfg H) → PSt.init.run cd cfg lim ls = some p →
    ∀ i, (p.st.insts i).up = true → ∃ ls' p', NotRestarted i ls' ∧ p.run cd cfg lim ls' = some p' ∧ (p'.st.insts i).up = true ∧
      p.st.stream.entries.map decoded <+: updatesOf (p'.st.insts i).hist

/-- A call at an instance that is up can, without a restart, come to an end. -/
def Answers (cd : Codec) (cfg : Config) (lim : Int) (H : Nat) : Prop :=
  ∀ (ls : List PLabel) (p : PSt), (∀ l ∈ plainSys ls, l.Plausible cfg H) → PSt.init.run cd cfg lim ls = some p →
    ∀ c x, p.st.calls c = some x → x.outcome = none → ∃ ls' p' x' o, NotRestarted x.inst ls' ∧
      (∀ l ∈ plainSys ls', l.Plausible cfg H) ∧ p.run cd cfg lim ls' = some p' ∧
      p'.st.calls c = some x' ∧ x'.outcome = some o ∧ o ≠ .gone

/-- The variable, or its default. -/
theorem limit_says {env : GoMap Str} {n : Nat} (h : Says env "OM_REDIS_POOL_MAX_ACTIVE".toList n) : poolLimit env = n :=
  (C86_numbers_partial env _ _ h).1

theorem limit_default : Says [] "OM_REDIS_POOL_MAX_ACTIVE".toList (500 : Nat) := .inr ⟨.inl rfl, by decide +kernel⟩

/-- **C126 is false of the code**: whatever limit OM_REDIS_POOL_MAX_ACTIVE sets, after that many batches a new call at the
instance never ends. -/
theorem C126_answers_refuted (env : GoMap Str) (n : Nat) (hn : 0 < n) (he : Says env "OM_REDIS_POOL_MAX_ACTIVE".toList n) :
    ¬ Answers Wire.codec Config.default (poolLimit env) 1600000000000 := by
  intro hA
  rw [limit_says he] at hA
  obtain ⟨ls, p, h1, h2, h3, h4, h5, h6⟩ := batches Wire.codec n (by omega) n (Int.le_refl _)
  have hs : step Wire.codec Config.default p.st (.call n 0 aCall) =
      some (p.st.setCall n ⟨0, aCall, [itsUpdate], [itsUpdate], [], none, p.st.stream.entries.length⟩) := by
    have hq : aCall.queue Wire.codec Config.default = .ok [itsUpdate] := rfl
    simp [step, h4, h6 n (Nat.le_refl _), hq]
  generalize hx : (⟨0, aCall, [itsUpdate], [itsUpdate], [], none, p.st.stream.entries.length⟩ : Call) = x at hs
  generalize hs1 : p.st.setCall n x = s1 at hs
  have hp1 : p.step Wire.codec Config.default n (.sys (.call n 0 aCall) false) = some { p with st := s1 } := by
    simp only [PSt.step, hs, Option.bind_some, reader, sender]
  have happ : ∀ a b, plainSys (a ++ b) = plainSys a ++ plainSys b := by
    intro a b
    induction a with
    | nil => rfl
    | cons l a ih => cases l <;> simp [plainSys, ih]
  have hpl : ∀ l ∈ plainSys (ls ++ [.sys (.call n 0 aCall) false]), l.Plausible Config.default 1600000000000 := by
    rw [happ]
    intro l hl
    rcases List.mem_append.1 hl with hl | hl
    · exact h2 l hl
    · have : l = .call n 0 aCall := by simpa [plainSys] using hl
      subst this; trivial
  have hrun : PSt.init.run Wire.codec Config.default n (ls ++ [.sys (.call n 0 aCall) false]) = some { p with st := s1 } := by
    rw [prun_append, h1]
    simp [PSt.run, hp1]
  have hxc : s1.calls n = some x := by rw [← hs1]; simp [St.setCall]
  obtain ⟨ls', p', x', o, g1, g2, g3, g4, g5, g6⟩ := hA _ _ hpl hrun n x hxc (by rw [← hx])
  have hxi : x.inst = 0 := by rw [← hx]
  rw [hxi] at g1
  -- the call keeps its instance and its updates
  have hbase := base_run _ (base_init Wire.codec Config.default 1600000000000) hpl _ (C126_refines _ _ _ _ _ _ hrun)
  have hlater := (later_run _ hbase g2 _ (C126_refines _ _ _ _ _ _ g3)).2
  have hm := C126_mute Wire.codec Config.default n (by omega) 1600000000000 ls (.sys (.call n 0 aCall) false :: ls') p p'
    (by
      rw [← List.singleton_append, ← List.append_assoc, happ]
      intro l hl
      rcases List.mem_append.1 hl with hl | hl
      · exact hpl l hl
      · exact g2 l hl)
    h1 0 (by rw [h3]) (by
      intro b hb
      rcases List.mem_cons.1 hb with hb | hb
      · cases hb
      · exact g1 b hb)
    (by simp only [PSt.run, hp1, Option.bind_some]; exact g3) n (h6 n (Nat.le_refl _)) x' g4
  obtain ⟨y, y1, y2, -, y4, -⟩ := hlater.calls n x hxc
  rw [g4] at y1
  cases y1
  have := hm (y2.trans hxi) (by rw [y4, ← hx]; simp)
  rw [g5] at this
  rcases this with h | h
  · cases h
  · cases h; exact g6 rfl

private theorem idle (cd : Codec) (lim : Int) (p : PSt) (hup : (p.st.insts 0).up = true) (hs : p.st.stream = Stream.empty) : ∀ n : Nat,
    ((p.reads 0 + n : Nat) : Int) ≤ lim → ∃ p', p.run cd Config.default lim (List.replicate n (.sys (.poll 0) false)) = some p' ∧
      p'.reads 0 = p.reads 0 + n ∧ p'.writes = p.writes ∧ p'.st.stream = Stream.empty ∧ p'.st.calls = p.st.calls ∧
      (∀ j, (p'.st.insts j).up = (p.st.insts j).up ∧ (p'.st.insts j).pending = (p.st.insts j).pending ∧
        heard (p'.st.insts j) = heard (p.st.insts j))
  | 0, _ => ⟨p, rfl, rfl, rfl, hs, rfl, fun _ => ⟨rfl, rfl, rfl⟩⟩
  | n + 1, hn => by
    have hpo : pollUpdates p.st.stream Config.default.inMax (p.st.insts 0).replId = some ([], (p.st.insts 0).replId) := by
      rw [hs]; rfl
    have hst : step cd Config.default p.st (.poll 0) = some (p.st.setInst 0 { p.st.insts 0 with inbox := (p.st.insts 0).inbox ++ [] }) := by
      simp only [step, hup, if_true, hpo]
    have hf : full lim (p.reads 0) = false := by simp only [full, decide_eq_false_iff_not]; omega
    generalize hg : p.st.setInst 0 { p.st.insts 0 with inbox := (p.st.insts 0).inbox ++ [] } = s1 at hst
    have h1 : p.step cd Config.default lim (.sys (.poll 0) false) = some ⟨s1, bump p.reads 0, p.writes⟩ := by
      simp only [PSt.step, hst, Option.bind_some, reader, hf]; rfl
    have hi : ∀ j, (s1.insts j).up = (p.st.insts j).up ∧ (s1.insts j).pending = (p.st.insts j).pending ∧
        heard (s1.insts j) = heard (p.st.insts j) := by
      intro j
      rw [← hg]
      simp only [St.setInst, List.append_nil]
      split
      · rename_i e; subst e; exact ⟨rfl, rfl, rfl⟩
      · exact ⟨rfl, rfl, rfl⟩
    obtain ⟨p', g1, g2, g3, g4, g5, g6⟩ := idle cd lim ⟨s1, bump p.reads 0, p.writes⟩ (by dsimp only; rw [(hi 0).1]; exact hup)
      (by dsimp only; rw [← hg]; exact hs) n (by simp only [bump, if_true]; omega)
    refine ⟨p', by simp only [List.replicate_succ, PSt.run, h1, Option.bind_some]; exact g1,
      by rw [g2]; simp only [bump, if_true]; omega, g3, g4, by rw [g5, ← hg]; rfl, fun j => ?_⟩
    obtain ⟨a, b, c⟩ := g6 j
    obtain ⟨a', b', c'⟩ := hi j
    exact ⟨a.trans a', b.trans b', c.trans c'⟩

/-- **C126 is false of the code**: whatever limit OM_REDIS_POOL_MAX_ACTIVE sets, an instance that has asked Redis for news that
many times, and found none, never hears of a deactivation made afterwards at another instance. -/
theorem C126_hears_refuted (env : GoMap Str) (n : Nat) (hn : 0 < n) (he : Says env "OM_REDIS_POOL_MAX_ACTIVE".toList n) :
    ¬ Hears Wire.codec Config.default (poolLimit env) 1600000000000 := by
  intro hA
  rw [limit_says he] at hA
  generalize hp0 : (⟨((init.setInst 0 Inst.fresh).setInst 1 Inst.fresh), fun _ => 0, fun _ => 0⟩ : PSt) = p0
  have h0 : PSt.init.run Wire.codec Config.default n [.sys (.start 0) false, .sys (.start 1) false] = some p0 := by
    rw [← hp0]
    simp only [PSt.run, PSt.step, PSt.init, step, init, Inst.down, Option.bind_some, Bool.false_eq_true, if_false, ite_self, St.setInst]
    rfl
  obtain ⟨p, g1, g2, g3, g4, g5, g6⟩ := idle Wire.codec n p0 (by rw [← hp0]; rfl) (by rw [← hp0]; rfl) n (by rw [← hp0]; simp)
  have hr0 : p0.reads 0 = 0 := by rw [← hp0]
  obtain ⟨q, b1, b2, -, b4, b5, -, -, b8⟩ := batch (cd := Wire.codec) (lim := n) p 1 0 (by rw [(g6 1).1, ← hp0]; rfl)
    (by rw [(g6 1).2.1, ← hp0]; rfl) (by rw [g5, ← hp0]; rfl) (by rw [g3, ← hp0]; simp [full]; omega)
  have hrun : PSt.init.run Wire.codec Config.default n ([.sys (.start 0) false, .sys (.start 1) false] ++
      (List.replicate n (.sys (.poll 0) false) ++
        [.sys (.call 0 1 aCall) false, .sys (.submit 0 (okEnv 1)) false, .sys (.timeout 1 (okEnv 1)) false])) = some q := by
    rw [prun_append, h0, Option.bind_some, prun_append, g1, Option.bind_some]
    exact b1
  obtain ⟨ls', p', n1, n2, n3, n4⟩ := hA _ q (by
    have happ : ∀ a b, plainSys (a ++ b) = plainSys a ++ plainSys b := by
      intro a b
      induction a with
      | nil => rfl
      | cons l a ih => cases l <;> simp [plainSys, ih]
    have hrep : ∀ n, plainSys (List.replicate n (.sys (.poll 0) false)) = List.replicate n (.poll 0) := by
      intro n
      induction n with
      | zero => rfl
      | succ n ih => simp only [List.replicate_succ, plainSys, ih]
    rw [happ, happ, hrep]
    intro l hl
    simp only [plainSys, List.mem_append, List.mem_cons, List.not_mem_nil, or_false, List.mem_replicate] at hl
    rcases hl with (rfl | rfl) | ⟨-, rfl⟩ | rfl | rfl | rfl
    · trivial
    · trivial
    · trivial
    · trivial
    · exact okEnv_plausible 1
    · exact okEnv_plausible 1) hrun 0 (by rw [b4, (g6 0).1, ← hp0]; rfl)
  have hd := C126_deaf Wire.codec Config.default n (by omega) q p' 0 ls' (by rw [b2, g2, hr0]; omega) n1 n2
  rcases hd with hd | hd
  · rw [n3] at hd; cases hd
  · have he' : heard (q.st.insts 0) = [] := by rw [b5, (g6 0).2.2, ← hp0]; rfl
    rw [he'] at hd
    have hh : updatesOf (p'.st.insts 0).hist = [] := (List.append_eq_nil_iff.1 hd).1
    rw [hh, List.prefix_nil, b8, g4] at n4
    revert n4
    decide +kernel

/-- The default settings: a limit of 500. -/
example : ¬ Answers Wire.codec Config.default (poolLimit []) 1600000000000 ∧ ¬ Hears Wire.codec Config.default (poolLimit []) 1600000000000 :=
  ⟨C126_answers_refuted [] 500 (by decide) limit_default, C126_hears_refuted [] 500 (by decide) limit_default⟩

/-- The hypotheses of `C126_deaf` and `C126_mute` are met: with a limit of 2, two polls and two batches; then a third call
is taken in, and neither its batch nor a poll can be. -/
example :
    let call c : List PLabel := [.sys (.call c 0 aCall) false, .sys (.submit c (okEnv 1)) false]
    let flush : PLabel := .sys (.timeout 0 (okEnv 1)) false
    let p := PSt.init.run Wire.codec Config.default 2 ([.sys (.start 0) false, .sys (.poll 0) false, .pollFail 0] ++
      call 0 ++ [flush] ++ call 1 ++ [flush] ++ call 2)
    p.map (fun p => (p.reads 0, p.writes 0, (p.st.insts 0).pending.length, p.st.stream.entries.length)) = some (2, 2, 1, 2) ∧
    (p.bind fun p => p.step Wire.codec Config.default 2 flush).isNone ∧
    (p.bind fun p => p.step Wire.codec Config.default 2 (.sys (.poll 0) false)).isNone ∧
    (p.bind fun p => p.step Wire.codec Config.default 3 flush).isSome := by decide +kernel

/-! ## Until then, and without a limit -/

/-- A run without pools is one with, while there are connections. -/
private theorem lift {cd : Codec} {cfg : Config} {lim : Int} (ls : List Label) : ∀ (p : PSt) (s : St),
    (lim ≤ 0 ∨ ∀ i, ((p.reads i + ls.length : Nat) : Int) ≤ lim ∧ ((p.writes i + ls.length : Nat) : Int) ≤ lim) →
    run cd cfg p.st ls = some s → ∃ p', p.run cd cfg lim (ls.map (.sys · false)) = some p' ∧ p'.st = s := by
  induction ls with
  | nil => intro p s _ h; cases h; exact ⟨p, rfl, rfl⟩
  | cons l ls ih =>
    intro p s hl h
    simp only [run] at h
    obtain ⟨t, ht, h⟩ := Option.bind_eq_some_iff.1 h
    have hfull : ∀ n : Nat, (lim ≤ 0 ∨ ((n + (l :: ls).length : Nat) : Int) ≤ lim) → full lim n = false := by
      intro n hn
      simp only [full, decide_eq_false_iff_not, List.length_cons] at hn ⊢
      omega
    have hstep : ∃ q, p.step cd cfg lim (.sys l false) = some q ∧ q.st = t ∧ ∀ i, q.reads i ≤ p.reads i + 1 ∧ q.writes i ≤ p.writes i + 1 := by
      have hb : ∀ (f : Nat → Nat) j i, bump f j i ≤ f i + 1 := by intro f j i; unfold bump; split <;> omega
      have hr := fun i => hfull (p.reads i) (hl.imp id fun h => (h i).1)
      have hw := fun i => hfull (p.writes i) (hl.imp id fun h => (h i).2)
      simp only [PSt.step, ht, Option.bind_some]
      split
      · exact ⟨_, rfl, rfl, fun i => by dsimp only; constructor <;> split <;> omega⟩
      · split
        · rw [if_neg (by rw [hr]; decide)]
          exact ⟨_, rfl, rfl, fun i => ⟨hb _ _ _, Nat.le_succ _⟩⟩
        · rw [if_neg (by rw [hw]; decide)]
          exact ⟨_, rfl, rfl, fun i => ⟨Nat.le_succ _, hb _ _ _⟩⟩
        · exact ⟨_, rfl, rfl, fun i => ⟨Nat.le_succ _, Nat.le_succ _⟩⟩
    obtain ⟨q, q1, rfl, q3⟩ := hstep
    obtain ⟨p', g1, g2⟩ := ih q s (hl.imp id fun h i => by
      have := h i
      have := q3 i
      simp only [List.length_cons] at *
      omega) h
    exact ⟨p', by simp only [List.map_cons, PSt.run, q1, Option.bind_some]; exact g1, g2⟩

/-- **C126 (for a while).** Partial: full C126 has no bound (`C126_answers_refuted`, `C126_hears_refuted`).  An execution
of the system with no more steps than OM_REDIS_POOL_MAX_ACTIVE is possible as it is. -/
theorem C126_for_a_while_partial (cd : Codec) (cfg : Config) (lim : Int) (ls : List Label) (s : St)
    (hl : (ls.length : Int) ≤ lim) (h : run cd cfg init ls = some s) :
    ∃ p, PSt.init.run cd cfg lim (ls.map (.sys · false)) = some p ∧ p.st = s :=
  lift ls PSt.init s (.inr fun _ => by simpa [PSt.init] using hl) h

private theorem stays_up {cd : Codec} {cfg : Config} {H : Nat} {i : Nat} (ls : List Label) : ∀ {s s' : St}, Base cd cfg H s →
    (∀ l ∈ ls, l = .poll i ∨ l = .apply i) → run cd cfg s ls = some s' → (s.insts i).up = true → (s'.insts i).up = true := by
  induction ls with
  | nil => intro s s' _ _ h hup; cases h; exact hup
  | cons l ls ih =>
    intro s s' hb hl h hup
    simp only [run] at h
    obtain ⟨t, ht, h⟩ := Option.bind_eq_some_iff.1 h
    have hl1 := hl l (by simp)
    have hb' := base_step hb l (by rcases hl1 with rfl | rfl <;> trivial) t ht
    refine ih hb' (fun l hl' => hl l (List.mem_cons_of_mem _ hl')) h ?_
    rcases hl1 with rfl | rfl
    · simp only [step, hup, if_true] at ht
      split at ht
      · cases ht
        have := hb'.panics
        simp [St.panic] at this
      · cases ht
        simp [St.setInst]
    · simp only [step, hup, if_true] at ht
      split at ht
      · cases ht
      · cases ht
        simp [St.setInst]

private theorem result_some {cd : Codec} {cfg : Config} {x : Call} (hq : x.rpc.queue cd cfg = .ok x.updates)
    (hl : x.got.length = x.updates.length) : ∃ order o, x.result order = some o ∧ o ≠ .gone := by
  cases hr : x.rpc with
  | create now t =>
    rw [hr] at hq
    simp only [Rpc.queue] at hq
    cases hc : createTicketQueue cd cfg now t with
    | error e => rw [hc] at hq; cases hq
    | ok u =>
      rw [hc] at hq
      have hu : [u] = x.updates := by injection hq
      rw [← hu] at hl
      match hg : x.got, hl with
      | [r], _ =>
        cases hc : createTicketReturn r with
        | ok k => exact ⟨[], .id k, by simp [Call.result, hr, hg, hc], by simp⟩
        | error e => exact ⟨[], .err e, by simp [Call.result, hr, hg, hc], by simp⟩
  | setState cmd ids =>
    rw [hr] at hq
    simp only [Rpc.queue] at hq
    have hlen : x.updates.length = (validateTicketIds ids).1.length := by
      unfold activeStateQueue at hq
      split at hq
      · simp at hq
      · split at hq
        · simp at hq
        · injection hq with hq; rw [← hq]; simp [stateUpdatesFor]
    obtain ⟨m, m1, -⟩ := collectErrs_spec cmd (validateTicketIds ids).1 x.got [] (by omega)
    cases ha : addStateUpdateErrorDetails m with
    | none => exact ⟨m, .ok, by simp [Call.result, hr, m1, ha], by simp⟩
    | some e => exact ⟨m, .err e, by simp [Call.result, hr, m1, ha], by simp⟩
  | assign r =>
    cases ha : createAssignmentsReturn x.got with
    | none => exact ⟨[], .ok, by simp [Call.result, hr, ha], by simp⟩
    | some e => exact ⟨[], .err e, by simp [Call.result, hr, ha], by simp⟩
  | matched ids => exact ⟨[], .ok, by simp [Call.result, hr], by simp⟩

private def enough (cfg : Config) (H n : Nat) : SendEnv := ⟨List.replicate n ⟨H, none⟩, cfg.ttl, none, none⟩

private theorem enough_plausible (cfg : Config) (H n : Nat) : (enough cfg H n).Plausible cfg H := by
  refine ⟨fun c hc => ?_, by simp [enough]⟩
  simp only [enough, List.mem_replicate] at hc
  rw [hc.2]

private theorem outgoing_call {cfg : Config} {s : St} {i c : Nat} {env : SendEnv} {e : OutEv} {x : Call} (hx : s.calls c = some x) :
    ∃ y, (outgoing cfg s i env e).calls c = some y ∧ y.inst = x.inst ∧ y.todo = x.todo ∧ y.outcome = x.outcome := by
  rcases outgoing_cases cfg s i env e with h | h <;> rw [h]
  · exact ⟨x, hx, rfl, rfl, rfl⟩
  · simp only [flushed, St.give, St.setInst, hx, Option.map_some]
    exact ⟨_, rfl, rfl, rfl, rfl⟩

private theorem can_end {cd : Codec} {cfg : Config} {H : Nat} (c : Nat) : ∀ (todo : List StateUpdate) (s : St) (x : Call),
    Base cd cfg H s → s.calls c = some x → x.outcome = none → x.todo = todo →
    ∃ ls s' x' o, (∀ l ∈ ls, l.Plausible cfg H ∧ ∀ i, l ≠ .start i) ∧ run cd cfg s ls = some s' ∧ s'.calls c = some x' ∧
      x'.outcome = some o ∧ o ≠ .gone
  | u :: rest, s, x, hb, hx, ho, ht => by
    generalize henv : enough cfg H ((s.insts x.inst).pending.length + 1) = env
    have hpl : env.Plausible cfg H := by rw [← henv]; exact enough_plausible _ _ _
    have hst : step cd cfg s (.submit c env) = some (outgoing cfg (s.setCall c { x with todo := rest }) x.inst env (.recv ⟨c, u⟩)) := by
      simp only [step, hx, ht]
      exact if_pos ⟨by rw [ho]; rfl, by rw [← henv]; simp [enough]⟩
    obtain ⟨y, y1, y2, y3, y4⟩ := outgoing_call (cfg := cfg) (i := x.inst) (env := env) (e := .recv ⟨c, u⟩)
      (show (s.setCall c { x with todo := rest }).calls c = some { x with todo := rest } by simp [St.setCall])
    have hb' := base_step hb (.submit c env) hpl _ hst
    obtain ⟨ls, s', x', o, g1, g2, g3⟩ := can_end c rest _ y hb' y1 (y4.trans ho) y3
    refine ⟨.submit c env :: ls, s', x', o, ?_, by simp only [run, hst, Option.bind_some]; exact g2, g3⟩
    intro l hl
    rcases List.mem_cons.1 hl with rfl | hl
    · exact ⟨hpl, fun i e => by cases e⟩
    · exact g1 l hl
  | [], s, x, hb, hx, ho, ht => by
    generalize henv : enough cfg H (s.insts x.inst).pending.length = env
    have hpl : env.Plausible cfg H := by rw [← henv]; exact enough_plausible _ _ _
    have hst : step cd cfg s (.timeout x.inst env) = some (outgoing cfg s x.inst env .timeout) := by
      simp only [step]
      exact if_pos ⟨(hb.live c x hx ho).1, by rw [← henv]; simp [enough]⟩
    obtain ⟨y, y1, y2, y3, y4⟩ := outgoing_call (cfg := cfg) (i := x.inst) (env := env) (e := .timeout) hx
    have hb' := base_step hb (.timeout x.inst env) hpl _ hst
    have hpe : ((outgoing cfg s x.inst env .timeout).insts x.inst).pending = [] := by
      by_cases hp : (s.insts x.inst).pending = []
      · rw [outgoing_timeout_hold hp]; simp [hold, St.setInst]
      · rw [outgoing_timeout_flush hp]; simp [flushed, St.give, St.setInst]
    generalize outgoing cfg s x.inst env .timeout = s1 at *
    obtain ⟨-, ans, a1, a2⟩ := hb'.live c y y1 (y4.trans ho)
    rw [y2, hpe, y3, ht] at a1
    simp only [List.filter_nil, List.map_nil, List.append_nil] at a1
    have hlen : y.got.length = y.updates.length := by rw [a1, a2]
    have hq : y.rpc.queue cd cfg = .ok y.updates := by
      rcases hb'.upd c y y1 with h | ⟨-, e, -, h⟩
      · exact h
      · rw [y4, ho] at h; cases h
    obtain ⟨order, o, r1, r2⟩ := result_some hq hlen
    have hfin : step cd cfg s1 (.finish c order) = some (s1.setCall c { y with outcome := some o }) := by
      simp only [step, y1]
      refine (if_pos ⟨by rw [y4, ho]; rfl, y3.trans ht, hlen⟩).trans ?_
      rw [r1]; rfl
    refine ⟨[.timeout x.inst env, .finish c order], s1.setCall c { y with outcome := some o },
      { y with outcome := some o }, o, ?_, ?_, ?_, rfl, r2⟩
    · intro l hl
      simp only [List.mem_cons, List.not_mem_nil, or_false] at hl
      rcases hl with rfl | rfl
      · exact ⟨hpl, fun i e => by cases e⟩
      · exact ⟨trivial, fun i e => by cases e⟩
    · simp only [run, hst, hfin, Option.bind_some]
    · simp [St.setCall]

private theorem plainSys_map (ls : List Label) : plainSys (ls.map (.sys · false)) = ls := by
  induction ls with
  | nil => rfl
  | cons l ls ih => simp only [List.map_cons, plainSys, ih]

/-- **C126 (without a limit).** Partial: the limit is 500 by default (`C126_answers_refuted`, `C126_hears_refuted`).  With
OM_REDIS_POOL_MAX_ACTIVE of 0 or less, whatever has happened: a call at an instance that is up can come to an end, and
an instance that is up can come to have applied the whole stream. -/
theorem C126_unlimited_partial (cd : Codec) (cfg : Config) (lim : Int) (hlim : lim ≤ 0) (H : Nat) :
    Answers cd cfg lim H ∧ Hears cd cfg lim H := by
  refine ⟨fun ls p hp hr c x hx ho => ?_, fun ls p hp hr i hup => ?_⟩
  · have hb := base_run _ (base_init cd cfg H) hp _ (C126_refines cd cfg lim _ _ ls hr)
    obtain ⟨ls', s', x', o, g1, g2, g3, g4, g5⟩ := can_end c x.todo p.st x hb hx ho rfl
    obtain ⟨p', q1, rfl⟩ := lift ls' p s' (.inl hlim) g2
    refine ⟨_, p', x', o, ?_, ?_, q1, g3, g4, g5⟩
    · intro b hb
      obtain ⟨l, hl, e⟩ := List.mem_map.1 hb
      cases e
      exact (g1 _ hl).2 _ rfl
    · rw [plainSys_map]
      exact fun l hl => (g1 l hl).1
  · have hs := C126_refines cd cfg lim _ _ ls hr
    have hb := base_run _ (base_init cd cfg H) hp _ hs
    obtain ⟨ls', s', g1, g2, -, g4⟩ := C70_instances_can_catch_up cd cfg H (plainSys ls) p.st hp hs i hup
    obtain ⟨p', q1, rfl⟩ := lift ls' p s' (.inl hlim) g2
    refine ⟨_, p', ?_, q1, stays_up ls' hb g1 g2 hup, by rw [g4]; exact List.prefix_rfl⟩
    intro b hb
    obtain ⟨l, hl, e⟩ := List.mem_map.1 hb
    cases e
    rcases g1 _ hl with e | e <;> cases e

end OM.Props
