import Verif.Model.Listen
import Verif.Props.Config
import Verif.Lemmas.Serve
import Mathlib.Data.List.Nodup
/-!
# Properties C106, C108, C129 and C130: what is served where, and what happens when a server fails
-/
namespace OM.Props
open OM.Spec OM.Conf

/-- Decimal port numbers mean what they say. -/
def ReadsPorts (resolve : Str → Option Nat) : Prop :=
  ∀ s, Decimals s → digitsValue s ≤ 65535 → resolve s = some (digitsValue s)

/-- A REST request reaches the gRPC server. -/
def RestWorks (l : Listening) : Prop := l.dials = some l.grpc

private theorem port_text (env : GoMap Str) (n : Nat) (h : Says env "PORT".toList n) :
    getString env "PORT".toList = fmtNat n := by
  rw [getString_says h]; rfl

/-- The orders in which the servers can ask for their ports: each asks once, gRPC before REST (core/server.go:41, :68);
the two others in goroutines of their own, so that nothing is known of them. -/
structure Order (o : List Binder) : Prop where
  once : o.Nodup
  all : ∀ b, b ∈ o
  grpcFirst : [Binder.grpc, .http].Sublist o

private theorem attempts_all {free : Nat → Bool} {n : Nat} (hn : free n = true) (h0 : free 58081 = true) : ∀ (o up : List Binder),
    (o.map (portOf n)).Nodup → (∀ b ∈ o, portOf n b ∉ up.map (portOf n)) →
    attempts free n up o = some ((o.filter fun b => free (portOf n b)).reverse ++ up) := by
  intro o
  induction o with
  | nil => intro up _ _; rfl
  | cons b bs ih =>
    intro up hd hu
    rw [List.map_cons, List.nodup_cons] at hd
    have hb : (up.map (portOf n)).contains (portOf n b) = false := by
      simpa using hu b (by simp)
    unfold attempts attempt
    rw [hb]
    by_cases hf : free (portOf n b) = true
    · have := ih (b :: up) hd.2 (fun c hc hm => by
        rw [List.map_cons, List.mem_cons] at hm
        rcases hm with hm | hm
        · exact hd.1 (hm ▸ List.mem_map_of_mem hc)
        · exact hu c (List.mem_cons_of_mem _ hc) hm)
      simp only [hf, Bool.not_false, Bool.and_self, if_true, Option.bind_some, this, List.filter_cons, List.reverse_cons,
        List.append_assoc, List.cons_append, List.nil_append]
    · have := ih up hd.2 (fun c hc => hu c (List.mem_cons_of_mem _ hc))
      simp only [Bool.not_eq_true] at hf
      simp only [hf, Bool.not_false, Bool.false_and, Bool.false_eq_true, if_false, List.filter_cons]
      cases b with
      | pprof => exact this
      | metrics => exact this
      | grpc => simp only [portOf] at hf; rw [hn] at hf; cases hf
      | http => simp only [portOf, httpPort] at hf; rw [h0] at hf; cases hf

private theorem attempts_spec {free : Nat → Bool} {n : Nat} : ∀ (o up up' : List Binder), attempts free n up o = some up' →
    (up.map (portOf n)).Nodup → (∀ b ∈ up, free (portOf n b) = true) →
    (∀ b ∈ up, b ∈ up') ∧ (∀ b ∈ o, b = .grpc ∨ b = .http → b ∈ up') ∧ (up'.map (portOf n)).Nodup ∧
      ∀ b ∈ up', free (portOf n b) = true := by
  intro o
  induction o with
  | nil => intro up up' h h1 h2; cases h; exact ⟨fun _ h => h, (fun _ h => by cases h), h1, h2⟩
  | cons b bs ih =>
    intro up up' h h1 h2
    unfold attempts at h
    obtain ⟨u, hu, hr⟩ := Option.bind_eq_some_iff.1 h
    unfold attempt at hu
    split at hu
    · rename_i hc
      injection hu with hu; subst hu
      rw [Bool.and_eq_true, Bool.not_eq_true', List.contains_eq_mem, decide_eq_false_iff_not] at hc
      obtain ⟨i1, i2, i3, i4⟩ := ih _ _ hr (by rw [List.map_cons, List.nodup_cons]; exact ⟨hc.2, h1⟩)
        (fun c hc' => (List.mem_cons.1 hc').elim (fun h => h ▸ hc.1) (h2 c))
      refine ⟨fun c hc => i1 c (List.mem_cons_of_mem _ hc), fun c hc hg => ?_, i3, i4⟩
      rcases List.mem_cons.1 hc with rfl | hc
      · exact i1 _ (List.mem_cons_self ..)
      · exact i2 c hc hg
    · have hu' : u = up ∧ b ≠ .grpc ∧ b ≠ .http := by
        cases b <;> simp_all
      obtain ⟨rfl, hg, hh⟩ := hu'
      obtain ⟨i1, i2, i3, i4⟩ := ih _ _ hr h1 h2
      refine ⟨i1, fun c hc hg' => ?_, i3, i4⟩
      rcases List.mem_cons.1 hc with rfl | hc
      · exact absurd hg' (by simp [hg, hh])
      · exact i2 c hc hg'

private theorem apart {n : Nat} {up : List Binder} (h : (up.map (portOf n)).Nodup) {a b : Binder} (ha : a ∈ up) (hb : b ∈ up)
    (hab : a ≠ b) : portOf n a ≠ portOf n b := fun he => hab (List.inj_on_of_nodup_map h ha hb he)

/-- What is known of om-core once it runs. -/
private theorem runs {resolve : Str → Option Nat} {free : Nat → Bool} {picked : Nat} {o : List Binder} {env : GoMap Str} {l : Listening}
    (ho : Order o) (hl : serveApi resolve free picked o env = some l) :
    ∃ p, resolve (getString env "PORT".toList) = some p ∧ l.grpc = (if p = 0 then picked else p) ∧ l.http = 58081 ∧
      l.dials = some p ∧ l.grpc ≠ 58081 ∧ free l.grpc = true ∧ free 58081 = true ∧
      (l.metrics = true → l.grpc ≠ 2223 ∧ free 2223 = true) ∧ (l.pprof = true → l.grpc ≠ 2224 ∧ free 2224 = true) := by
  unfold serveApi startServers at hl
  cases hr : resolve (getString env "PORT".toList) with
  | none => rw [hr] at hl; cases hl
  | some p =>
    rw [hr] at hl
    obtain ⟨up, hu, rfl⟩ := Option.map_eq_some_iff.1 hl
    obtain ⟨-, i2, i3, i4⟩ := attempts_spec _ _ _ hu (by simp) (by simp)
    have hg := i2 .grpc (ho.all _) (.inl rfl)
    have hh := i2 .http (ho.all _) (.inr rfl)
    refine ⟨p, rfl, rfl, rfl, rfl, apart i3 hg hh (by decide), i4 _ hg, i4 _ hh, fun hm => ?_, fun hm => ?_⟩
    · have hm : Binder.metrics ∈ up := by simpa using hm
      exact ⟨apart i3 hg hm (by decide), i4 _ hm⟩
    · have hm : Binder.pprof ∈ up := by simpa using hm
      exact ⟨apart i3 hg hm (by decide), i4 _ hm⟩

/-- The full claim: if PORT is a port number other than 58081, and nobody else listens at any port of om-core's, gRPC
is served at PORT, REST at 58081, and REST requests reach the gRPC server. -/
def C106_statement : Prop := ∀ (resolve : Str → Option Nat), ReadsPorts resolve → ∀ (free : Nat → Bool) (picked : Nat) (o : List Binder),
  Order o → ∀ (env : GoMap Str) (n : Nat), Says env "PORT".toList n → 0 < n → n ≤ 65535 → n ≠ 58081 → (∀ q, free q = true) →
  ∃ l, serveApi resolve free picked o env = some l ∧ l.grpc = n ∧ l.http = 58081 ∧ RestWorks l

/-- The order in which main.go starts them. -/
def usualOrder : List Binder := [.pprof, .metrics, .grpc, .http]

theorem usualOrder_ok : Order usualOrder := ⟨by decide, fun b => by cases b <;> decide, by decide⟩

/-- **C106 is false of the code**: om-core's own metrics server has taken 2223 before gRPC asks for it, and the process
ends. -/
theorem C106_own_port_refuted : ¬ C106_statement := by
  intro h
  obtain ⟨l, hl, -⟩ := h (fun s => some (digitsValue s)) (fun s _ _ => rfl) (fun _ => true) 40000 usualOrder usualOrder_ok
    [("PORT".toList, "2223".toList)] 2223 (.inl (by constructor <;> decide +kernel))
    (by decide) (by decide) (by decide) (fun _ => rfl)
  have : serveApi (fun s => some (digitsValue s)) (fun _ => true) 40000 usualOrder [("PORT".toList, "2223".toList)] = none := by
    decide +kernel
  rw [this] at hl; cases hl

/-- **C106 (what holds).** Partial: the full claim is `C106_statement`.  If PORT is a port number other than 58081, 2223
and 2224, and nobody else listens there or at 58081, gRPC is served at PORT, REST at 58081, and REST requests reach the
gRPC server.  Metrics and profiles are served as well if their ports are free. -/
theorem C106_served_where_configured_partial (resolve : Str → Option Nat) (hres : ReadsPorts resolve) (free : Nat → Bool) (picked : Nat)
    (o : List Binder) (ho : Order o) (env : GoMap Str) (n : Nat) (h : Says env "PORT".toList n) (h1 : 0 < n) (h2 : n ≤ 65535)
    (h3 : n ≠ 58081) (h4 : n ≠ 2223) (h5 : n ≠ 2224) (hf : free n = true) (hf' : free 58081 = true) :
    ∃ l, serveApi resolve free picked o env = some l ∧ l.grpc = n ∧ l.http = 58081 ∧ RestWorks l ∧
      l.metrics = free 2223 ∧ l.pprof = free 2224 := by
  obtain ⟨hd, hv⟩ := Serve.decInt_fmtNat n
  have hr : resolve (fmtNat n) = some n := by rw [hres _ hd (by omega), hv]
  have hinj : (o.map (portOf n)).Nodup := by
    refine List.Nodup.map (fun a b hab => ?_) ho.once
    cases a <;> cases b <;> simp_all [portOf, pprofPort, metricsPort, httpPort]
  have := attempts_all hf hf' o [] hinj (by simp)
  refine ⟨⟨n, 58081, some n, free 2223, free 2224⟩, ?_, rfl, rfl, rfl, rfl, rfl⟩
  unfold serveApi startServers
  rw [port_text env n h, hr]
  simp only [if_neg (Nat.pos_iff_ne_zero.1 h1), this, Option.map_some, Option.some.injEq, Listening.mk.injEq, true_and]
  simp [httpPort, ho.all, portOf, metricsPort, pprofPort]

/-- **C106 (collisions).** om-core does not come up when the port it is told, or 58081, is in
use by somebody else, or when it is told to use 58081 itself. -/
theorem C106_collisions (resolve : Str → Option Nat) (hres : ReadsPorts resolve) (free : Nat → Bool) (picked : Nat)
    (o : List Binder) (ho : Order o) (env : GoMap Str) (n : Nat) (h : Says env "PORT".toList n) (h1 : 0 < n) (h2 : n ≤ 65535)
    (hc : n = 58081 ∨ free n = false ∨ free 58081 = false) : serveApi resolve free picked o env = none := by
  obtain ⟨hd, hv⟩ := Serve.decInt_fmtNat n
  have hr : resolve (fmtNat n) = some n := by rw [hres _ hd (by omega), hv]
  rw [Option.eq_none_iff_forall_ne_some]
  intro l hl
  obtain ⟨p, hp, hg, -, -, h3, h4, h5, -⟩ := runs ho hl
  rw [port_text env n h, hr] at hp
  injection hp with hp
  subst hp
  rw [if_neg (Nat.pos_iff_ne_zero.1 h1)] at hg
  rw [hg] at h3 h4
  rcases hc with hc | hc | hc
  · exact h3 hc
  · rw [h4] at hc; cases hc
  · rw [h5] at hc; cases hc

/-- The full claim on REST: whatever PORT is, if om-core runs, REST requests reach it. -/
def C106_rest_statement : Prop := ∀ (resolve : Str → Option Nat), ReadsPorts resolve → ∀ (free : Nat → Bool) (picked : Nat),
  0 < picked → free picked = true → ∀ (o : List Binder), Order o → ∀ (env : GoMap Str) (l : Listening),
  serveApi resolve free picked o env = some l → RestWorks l

/-- **C106 (REST) is false of the code**: with PORT=0 the system picks a port for gRPC, but the
gateway dials port 0. -/
theorem C106_port_zero_refuted : ¬ C106_rest_statement := by
  intro h
  have := h (fun s => some (digitsValue s)) (fun s _ _ => rfl) (fun _ => true) 40000 (by decide) rfl usualOrder usualOrder_ok
    [("PORT".toList, "0".toList)] ⟨40000, 58081, some 0, true, true⟩ (by decide +kernel)
  simp [RestWorks] at this

/-- **C106 (REST, what holds).** Partial: the full claim is `C106_rest_statement`.  If om-core
runs, REST is served at 58081 and reaches it, provided PORT does not stand for port 0. -/
theorem C106_rest_partial (resolve : Str → Option Nat) (free : Nat → Bool) (picked : Nat) (o : List Binder) (ho : Order o)
    (env : GoMap Str) (l : Listening) (hz : resolve (getString env "PORT".toList) ≠ some 0)
    (hl : serveApi resolve free picked o env = some l) :
    RestWorks l ∧ l.http = 58081 ∧ l.grpc ≠ l.http ∧ resolve (getString env "PORT".toList) = some l.grpc := by
  obtain ⟨p, hp, hg, hh, hd, h3, -⟩ := runs ho hl
  have hp0 : p ≠ 0 := fun h => hz (by rw [hp, h])
  rw [if_neg hp0] at hg
  exact ⟨by rw [RestWorks, hd, hg], hh, by rw [hh]; exact h3, by rw [hp, hg]⟩

example : (∃ l, serveApi (fun s => some (digitsValue s)) (fun _ => true) 40000 usualOrder [] = some l ∧
      l = ⟨8080, 58081, some 8080, true, true⟩) ∧
    Says [] "PORT".toList 8080 ∧ ReadsPorts (fun s => some (digitsValue s)) ∧
    serveApi (fun s => some (digitsValue s)) (fun _ => true) 40000 usualOrder [("PORT".toList, "58081".toList)] = none :=
  ⟨⟨_, by decide +kernel, rfl⟩, Or.inr ⟨Or.inl rfl, by simp [documented]⟩, fun _ _ _ => rfl, by decide +kernel⟩

/-! ## C129: metrics can be scraped -/

/-- The full claim: as long as om-core runs, everybody can get its metrics at port 2223. -/
def C129_statement : Prop := ∀ (resolve : Str → Option Nat), ReadsPorts resolve → ∀ (free : Nat → Bool) (picked : Nat) (o : List Binder),
  Order o → ∀ (env : GoMap Str) (l : Listening), serveApi resolve free picked o env = some l →
  ∀ b, httpGet l ⟨b, 2223⟩ "/metrics".toList = .metrics

/-- **C129 is false of the code**: where somebody else has port 2223, om-core runs without metrics. -/
theorem C129_metrics_refuted : ¬ C129_statement := by
  intro h
  have := h (fun s => some (digitsValue s)) (fun s _ _ => rfl) (fun q => q ≠ 2223) 40000 usualOrder usualOrder_ok [] _
    (by decide +kernel : serveApi _ _ _ _ _ = some ⟨8080, 58081, some 8080, false, true⟩) false
  exact absurd this (by decide +kernel)

/-- The same with PORT=2223 and no other process, if gRPC asks first. -/
theorem C129_own_port : ∃ o, Order o ∧
    ∃ l, serveApi (fun s => some (digitsValue s)) (fun _ => true) 40000 o [("PORT".toList, "2223".toList)] = some l ∧
      l.metrics = false :=
  ⟨[.pprof, .grpc, .metrics, .http], ⟨by decide, fun b => by cases b <;> decide, by decide⟩,
    ⟨2223, 58081, some 2223, false, true⟩, by decide +kernel, rfl⟩

private theorem metrics_page : defaultMux "/metrics".toList = .metrics := by decide +kernel

/-- **C129 (what holds).** Partial: the full claim is `C129_statement`.  If PORT is a number other than 58081, 2223 and
2224, and nobody else uses om-core's ports, everybody gets the metrics at port 2223 and, on the same machine, at 2224;
the REST port does not serve them. -/
theorem C129_metrics_partial (resolve : Str → Option Nat) (hres : ReadsPorts resolve) (free : Nat → Bool) (picked : Nat)
    (o : List Binder) (ho : Order o) (env : GoMap Str) (n : Nat) (h : Says env "PORT".toList n) (h1 : 0 < n) (h2 : n ≤ 65535)
    (h3 : n ≠ 58081) (h4 : n ≠ 2223) (h5 : n ≠ 2224) (hf : ∀ q, free q = true) :
    ∃ l, serveApi resolve free picked o env = some l ∧ (∀ b, httpGet l ⟨b, 2223⟩ "/metrics".toList = .metrics) ∧
      httpGet l ⟨true, 2224⟩ "/metrics".toList = .metrics ∧ httpGet l ⟨false, 2224⟩ "/metrics".toList = .nobody ∧
      ∀ b, httpGet l ⟨b, 58081⟩ "/metrics".toList = .api (.refused 404) := by
  obtain ⟨l, hl, a1, a2, -, a4, a5⟩ :=
    C106_served_where_configured_partial resolve hres free picked o ho env n h h1 h2 h3 h4 h5 (hf _) (hf _)
  refine ⟨l, hl, fun b => ?_, ?_, ?_, fun b => ?_⟩ <;> unfold httpGet <;>
    simp only [a1, a2, a4, a5, hf, h3.symm, h4.symm, h5.symm, metricsPort, pprofPort, if_false, if_true, and_self, and_true,
      Nat.reduceEqDiff, metrics_page, Bool.false_eq_true, and_false, false_and]
  exact congrArg Page.api (by decide +kernel)

/-! ## C130: who can profile om-core -/

/-- The pages of net/http/pprof: the index, the ones with handlers of their own, and the runtime's profiles. -/
def debugPages : List Str := ["".toList, "cmdline".toList, "profile".toList, "symbol".toList, "trace".toList, "goroutine".toList,
  "threadcreate".toList, "heap".toList, "allocs".toList, "block".toList, "mutex".toList]

/-- The full claim: profiles (and the command line, and the addresses of functions) are for clients on the same machine:
core/main.go serves them at localhost only. -/
def C130_statement : Prop := ∀ (resolve : Str → Option Nat), ReadsPorts resolve → ∀ (free : Nat → Bool) (picked : Nat) (o : List Binder),
  Order o → ∀ (env : GoMap Str) (l : Listening), serveApi resolve free picked o env = some l →
  ∀ q path name, httpGet l ⟨false, q⟩ path ≠ .profile name

/-- **C130 is false of the code**: with nothing configured, everybody gets the contents of om-core's memory at the port for
metrics. -/
theorem C130_profiles_are_local_refuted : ¬ C130_statement := by
  intro h
  exact h (fun s => some (digitsValue s)) (fun s _ _ => rfl) (fun _ => true) 40000 usualOrder usualOrder_ok [] _
    (by decide +kernel : serveApi _ _ _ _ _ = some ⟨8080, 58081, some 8080, true, true⟩) 2223 "/debug/pprof/heap".toList "heap".toList
    (by decide +kernel)

private theorem mux_profile {path name : Str} : defaultMux path = .profile name ↔ name ∈ debugPages ∧ path = "/debug/pprof/".toList ++ name := by
  constructor
  · intro h
    unfold defaultMux at h
    split at h; · cases h
    split at h; · cases h
    split at h; · cases h
    split at h
    · rename_i hp
      obtain ⟨t, rfl⟩ := List.isPrefixOf_iff_prefix.1 hp
      rw [List.drop_left] at h
      simp only at h
      split at h
      · rename_i hn
        injection h with h
        subst h
        exact ⟨by simpa [debugPages, debugHandlers, runtimeProfiles, or_assoc] using hn, rfl⟩
      · cases h
    · cases h
  · rintro ⟨hn, rfl⟩
    simp only [debugPages, List.mem_cons, List.not_mem_nil, or_false] at hn
    rcases hn with rfl | rfl | rfl | rfl | rfl | rfl | rfl | rfl | rfl | rfl | rfl <;> decide +kernel

/-- **C130 (exactly).** Partial: the full claim is `C130_statement`.  A client on another machine gets a page of
net/http/pprof at port 2223, if the metrics server runs, and nowhere else. -/
theorem C130_profiles_partial (resolve : Str → Option Nat) (free : Nat → Bool) (picked : Nat) (o : List Binder) (ho : Order o)
    (env : GoMap Str) (l : Listening) (hl : serveApi resolve free picked o env = some l) (q : Nat) (path name : Str) :
    httpGet l ⟨false, q⟩ path = .profile name ↔
      q = 2223 ∧ l.metrics = true ∧ name ∈ debugPages ∧ path = "/debug/pprof/".toList ++ name := by
  obtain ⟨p, -, -, hh, -, -, -, -, hm, -⟩ := runs ho hl
  unfold httpGet
  simp only [metricsPort, pprofPort, Bool.false_eq_true, and_false, if_false]
  constructor
  · intro h
    split at h; · cases h
    split at h; · cases h
    split at h
    · rename_i hq; exact ⟨hq.1, hq.2, mux_profile.1 h⟩
    · cases h
  · rintro ⟨rfl, h1, h2⟩
    rw [if_neg (Ne.symm (hm h1).1), if_neg (by rw [hh]; decide), if_pos ⟨rfl, h1⟩]
    exact mux_profile.2 h2

/-- Profiles are there for clients on the same machine: at 2224, unless somebody else has that port. -/
theorem C130_local_clients (resolve : Str → Option Nat) (free : Nat → Bool) (picked : Nat) (o : List Binder) (ho : Order o)
    (env : GoMap Str) (l : Listening) (hl : serveApi resolve free picked o env = some l) (hp : l.pprof = true) (name : Str)
    (hn : name ∈ debugPages) : httpGet l ⟨true, 2224⟩ ("/debug/pprof/".toList ++ name) = .profile name := by
  obtain ⟨p, -, -, hh, -, -, -, -, -, hm⟩ := runs ho hl
  unfold httpGet
  rw [if_neg (Ne.symm (hm hp).1), if_neg (by rw [hh]; decide), if_neg (by simp [metricsPort]), if_pos ⟨rfl, hp, rfl⟩]
  exact mux_profile.2 ⟨hn, rfl⟩

example : defaultMux "/debug/pprof/nothing".toList = .notFound ∧ defaultMux "/debug/pprof".toList = .redirect ∧
    defaultMux "/debug//pprof/heap".toList = .redirect ∧ defaultMux "/debug/pprof/".toList = .profile [] ∧ defaultMux "/".toList = .notFound := by
  decide +kernel

/-! ## C108 -/

/-- A server of this process no longer serves, and nobody is left to notice. -/
def Deaf (s : Startup) : Prop := s.dead = false ∧ (s.grpc = .ended ∨ s.http = .ended)

/-- The full claim: when a server fails, the process ends, so that it can be started anew; it
never stays up without one of its servers. -/
def C108_statement : Prop := ∀ ls s, Startup.init.run ls = some s → ¬ Deaf s

/-- **C108 is false of the code**: the gRPC server fails while `start` registers the gateway; that
succeeds, and sets the shared variable back to nil before the failure is looked at. -/
theorem C108_failure_ends_process_refuted : ¬ C108_statement := by
  intro h
  exact h [.grpcFails, .register false, .grpcTest, .testRegister] ⟨false, .started, .ended, .serving, false⟩ (by decide)
    (by simp [Deaf])

/-- What the steps so far say about the state. -/
private structure Seen (ls : List StartStep) (s : Startup) : Prop where
  failed : s.grpc = .failed → ∃ a b, ls = a ++ .grpcFails :: b ∧ (s.err = true ∨ .register false ∈ b)
  ended : s.grpc = .ended → ∃ a b c, ls = a ++ .grpcFails :: (b ++ .grpcTest :: c) ∧ .register false ∈ b
  http : s.http = .failed → s.err = true
  order : s.main ≠ .started → s.http = .unstarted
  never : s.http ≠ .ended

private theorem seen_step {ls : List StartStep} {s s' : Startup} {l : StartStep} (h : Seen ls s) (hs : s.step l = some s') :
    Seen (ls ++ [l]) s' := by
  obtain ⟨e, m, g, t, d⟩ := s
  obtain ⟨h1, h2, h3, h4, h5⟩ := h
  simp only at h1 h2 h3 h4 h5
  have grow : g = .failed → ∃ x y, ls ++ [l] = x ++ .grpcFails :: y ∧ (e = true ∨ StartStep.register false ∈ y) := by
    intro hg
    obtain ⟨x, y, hy, h⟩ := h1 hg
    exact ⟨x, y ++ [l], by simp [hy], h.imp id (by simp +contextual)⟩
  have grow' : g = .ended → ∃ x y z, ls ++ [l] = x ++ .grpcFails :: (y ++ .grpcTest :: z) ∧ .register false ∈ y := by
    intro hg
    obtain ⟨x, y, z, hy, h⟩ := h2 hg
    exact ⟨x, y, z ++ [l], by simp [hy], h⟩
  cases l <;> simp only [Startup.step] at hs <;> (repeat' split at hs) <;>
    (first | (cases hs; done) | (injection hs with hs; subst hs))
  · rename_i fails _ hm
    refine ⟨fun hg => ?_, grow', fun ht => ?_, fun _ => h4 (by simp [hm]), h5⟩
    · obtain ⟨x, y, hy, h⟩ := h1 hg
      refine ⟨x, y ++ [.register fails], by simp [hy], ?_⟩
      cases fails <;> simp
    · rw [h4 (by simp [hm])] at ht; cases ht
  · exact ⟨grow, grow', h3, h4, h5⟩
  · exact ⟨grow, grow', (fun h => by cases h), fun h => absurd rfl h, by simp⟩
  · exact ⟨fun _ => ⟨ls, [], rfl, .inl rfl⟩, (fun h => by cases h), fun _ => rfl, h4, h5⟩
  · exact ⟨grow, grow', h3, h4, h5⟩
  · rename_i hg he
    refine ⟨(fun h => by cases h), fun _ => ?_, h3, h4, h5⟩
    obtain ⟨x, y, hy, h⟩ := h1 hg
    exact ⟨x, y, [], by simp [hy], h.resolve_left he⟩
  · rename_i ht
    refine ⟨fun hg => ?_, grow', fun _ => rfl, fun hm => ?_, by simp⟩
    · obtain ⟨x, y, hy, -⟩ := grow hg
      exact ⟨x, y, hy, .inl rfl⟩
    · have := h4 hm; rw [ht] at this; cases this
  · exact ⟨grow, grow', h3, h4, h5⟩
  · rename_i ht he
    exact absurd (h3 ht) he

private theorem seen_run (ls : List StartStep) : ∀ {pre : List StartStep} {s s' : Startup}, Seen pre s → s.run ls = some s' →
    Seen (pre ++ ls) s' := by
  induction ls with
  | nil => intro pre s s' h hr; cases hr; simpa using h
  | cons l ls ih =>
    intro pre s s' h hr
    obtain ⟨s1, h1, h2⟩ := Option.bind_eq_some_iff.1 hr
    have := ih (seen_step h h1) h2
    simpa using this

private theorem seen_init {ls : List StartStep} {s : Startup} (hr : Startup.init.run ls = some s) : Seen ls s := by
  have := seen_run ls (pre := []) (s := Startup.init)
    ⟨(fun h => by cases h), (fun h => by cases h), (fun h => by cases h), fun _ => rfl, by decide⟩ hr
  simpa using this

/-- **C108 (what holds).** Partial: the full claim is `C108_statement`.  The process stays up
without one of its servers only if that is the gRPC server and the gateway is registered between
its failure and the test of the failure; a failure of the REST server always ends the process. -/
theorem C108_failure_ends_process_partial (ls : List StartStep) (s : Startup) (hr : Startup.init.run ls = some s) (hd : Deaf s) :
    s.http ≠ .ended ∧ ∃ a b c, ls = a ++ .grpcFails :: (b ++ .grpcTest :: c) ∧ .register false ∈ b :=
  have h := seen_init hr
  ⟨h.never, h.ended (hd.2.resolve_right h.never)⟩

/-- Beyond the registration, with no failure lost so far. -/
private structure Up (s : Startup) : Prop where
  main : s.main ≠ .listening
  grpc : s.grpc = .failed → s.err = true
  http : s.http = .failed → s.err = true
  grpc' : s.grpc ≠ .ended
  http' : s.http ≠ .ended

private theorem up_run (ls : List StartStep) : ∀ {s s' : Startup}, Up s → s.run ls = some s' → Up s' := by
  induction ls with
  | nil => intro s s' h hr; cases hr; exact h
  | cons l ls ih =>
    intro s s' h hr
    obtain ⟨s1, hs, h2⟩ := Option.bind_eq_some_iff.1 hr
    refine ih ?_ h2
    clear h2 ih hr
    obtain ⟨e, m, g, t, d⟩ := s
    obtain ⟨h1, h2, h3, h4, h5⟩ := h
    simp only at h1 h2 h3 h4 h5
    cases l <;> simp only [Startup.step] at hs <;> (repeat' split at hs) <;>
      (first | (cases hs; done) | (injection hs with hs; subst hs)) <;> constructor <;> simp_all

/-- **C108 (once it is up).** Partial, as above.  After the gateway is registered no failure goes
unnoticed: the next step of a failing server's goroutine ends the process. -/
theorem C108_after_registration_partial (pre post : List StartStep) (s s' : Startup)
    (hp : Startup.init.run pre = some s) (hreg : s.main ≠ .listening) (hg : s.grpc = .serving)
    (hr : s.run post = some s') : ¬ Deaf s' ∧ (s'.dead = false →
      (s'.grpc = .failed → ∃ t, s'.step .grpcTest = some t ∧ t.dead = true) ∧
      (s'.http = .failed → ∃ t, s'.step .httpTest = some t ∧ t.dead = true)) := by
  have h := seen_init hp
  have := up_run post (s := s) ⟨hreg, (fun h' => by rw [hg] at h'; cases h'), h.http, by rw [hg]; decide, h.never⟩ hr
  refine ⟨fun hd => hd.2.elim this.grpc' this.http', fun hd => ⟨fun hf => ?_, fun hf => ?_⟩⟩
  · exact ⟨{ s' with dead := true }, by simp [Startup.step, hd, hf, this.grpc hf], rfl⟩
  · exact ⟨{ s' with dead := true }, by simp [Startup.step, hd, hf, this.http hf], rfl⟩

/-- **C108 (not without reason).** The process ends by itself only after a server or the registration failed. -/
theorem C108_only_failures_end (ls : List StartStep) (s : Startup) (hr : Startup.init.run ls = some s) (hd : s.dead = true) :
    .grpcFails ∈ ls ∨ .httpFails ∈ ls ∨ .register true ∈ ls := by
  have key : ∀ (ls : List StartStep) {s s' : Startup}, s.run ls = some s' →
      s'.err = true ∨ s'.dead = true → .grpcFails ∈ ls ∨ .httpFails ∈ ls ∨ .register true ∈ ls ∨ s.err = true ∨ s.dead = true := by
    intro ls
    induction ls with
    | nil => intro s s' hr h; cases hr; exact .inr (.inr (.inr h))
    | cons l ls ih =>
      intro s s' hr h
      obtain ⟨s1, hs, h2⟩ := Option.bind_eq_some_iff.1 hr
      have hi := ih h2 h
      obtain ⟨e, m, g, t, d⟩ := s
      cases l <;> simp only [Startup.step] at hs <;> (repeat' split at hs) <;>
        (first | (cases hs; done) | (injection hs with hs; subst hs)) <;> simp_all
      rename_i fails _ _
      cases fails
      · simp only [Bool.false_eq_true, or_false] at hi
        exact hi.imp id (Or.imp id fun h => .inl (by simpa using h))
      · simp
  have := key ls hr (.inr hd)
  simpa [Startup.init] using this

/-- The gRPC server fails a while after the start: the process ends. -/
example : Startup.init.run [.register false, .testRegister, .grpcFails, .grpcTest] = some ⟨true, .started, .failed, .serving, true⟩ ∧
    Startup.init.run [.register false, .testRegister] = some ⟨false, .started, .serving, .serving, false⟩ := by decide

end OM.Props
