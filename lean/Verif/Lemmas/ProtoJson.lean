import Verif.Lemmas.Json
import Verif.Lemmas.Serve
import Verif.Spec.ProtoJson
import Mathlib.Tactic.Ring
import Mathlib.Tactic.Positivity
import Mathlib.Tactic.NormNum
/-! Lemmas on `Model/ProtoJson`: its readers accept exactly the JSON of the messages. -/
namespace OM.PJ
open OM.Spec

/-! ## Members -/

theorem occs_eq {json proto : String} (h : json.toList = camel proto.toList) (ms : List (Str × Json)) :
    occs json proto ms = occJ proto ms := by
  unfold occs occJ
  congr 1
  apply List.filter_congr
  intro m _
  rw [h]
  exact decide_eq_decide.mpr or_comm

theorem isNull_iff (j : Json) : isNull j = true ↔ j = .null := by cases j <;> simp [isNull]

theorem get_iff {α : Type} {json proto : String} (h : json.toList = camel proto.toList) (ms : List (Str × Json))
    (f : Option Json → Option α) (v : α) : get json proto ms f = some v ↔
      (Absent (occJ proto ms) ∧ f none = some v) ∨ ∃ j, occJ proto ms = [j] ∧ j ≠ .null ∧ f (some j) = some v := by
  unfold get field
  rw [occs_eq h]
  match occJ proto ms with
  | [] => simp [Absent]
  | [j] =>
    by_cases hj : j = .null
    · subst hj; simp [Absent, isNull]
    · have : isNull j = false := by rw [← Bool.not_eq_true, isNull_iff]; exact hj
      simp [Absent, this, hj]
  | _ :: _ :: _ => simp [Absent]

theorem asStr_iff (s : Str) (j : Json) : asStr j = some s ↔ StrJ s j := by cases j <;> simp [asStr, StrJ]

theorem strOf_iff {json proto : String} (h : json.toList = camel proto.toList) (ms : List (Str × Json)) (v : Str) :
    get json proto ms strOf = some v ↔ TextJ v (occJ proto ms) := by
  rw [get_iff h]
  unfold TextJ
  constructor
  · rintro (⟨ha, he⟩ | ⟨j, ho, -, he⟩)
    · cases he; exact .inr ⟨rfl, ha⟩
    · rw [show strOf (some j) = asStr j from rfl, asStr_iff] at he
      rw [he] at ho; exact .inl ho
  · rintro (ho | ⟨rfl, ha⟩)
    · exact .inr ⟨_, ho, by simp, rfl⟩
    · exact .inl ⟨ha, rfl⟩

theorem msgField_iff {α : Type} {json proto : String} (h : json.toList = camel proto.toList) {dec : Json → Option α}
    {R : α → Json → Prop} (hd : ∀ v j, dec j = some v ↔ R v j) (ms : List (Str × Json)) (v : Option α) :
    get json proto ms (msgField dec) = some v ↔ MsgJ R v (occJ proto ms) := by
  rw [get_iff h]
  constructor
  · rintro (⟨ha, he⟩ | ⟨j, ho, hn, he⟩)
    · cases he; exact ha
    · rw [show msgField dec (some j) = (dec j).map some from rfl, Option.map_eq_some_iff] at he
      obtain ⟨x, hx, rfl⟩ := he
      exact ⟨j, ho, hn, (hd x j).mp hx⟩
  · intro hm
    cases v with
    | none => exact .inl ⟨hm, rfl⟩
    | some x =>
      obtain ⟨j, ho, hn, hr⟩ := hm
      refine .inr ⟨j, ho, hn, ?_⟩
      rw [show msgField dec (some j) = (dec j).map some from rfl, (hd x j).mpr hr]; rfl

theorem mapM_iff {α β : Type} {f : β → Option α} {R : α → β → Prop} (hf : ∀ v j, f j = some v ↔ R v j) (js : List β) (l : List α) :
    js.mapM f = some l ↔ List.Forall₂ R l js := by
  induction js generalizing l with
  | nil =>
    rw [List.mapM_nil, List.forall₂_nil_right_iff]
    exact ⟨fun h => by cases h; rfl, fun h => by rw [h]; rfl⟩
  | cons j js ih =>
    rw [List.mapM_cons]
    simp only [bind, Option.bind_eq_some_iff, pure, Option.some.injEq]
    constructor
    · rintro ⟨x, hx, l', hl, rfl⟩
      exact .cons ((hf x j).mp hx) ((ih l').mp hl)
    · intro h
      cases h with
      | cons h1 h2 => exact ⟨_, (hf _ _).mpr h1, _, (ih _).mpr h2, rfl⟩

theorem listField_iff {α : Type} {json proto : String} (h : json.toList = camel proto.toList) {dec : Json → Option α}
    {R : α → Json → Prop} (hd : ∀ v j, dec j = some v ↔ R v j) (ms : List (Str × Json)) (v : List α) :
    get json proto ms (listField dec) = some v ↔ ListJ R v (occJ proto ms) := by
  rw [get_iff h]
  constructor
  · rintro (⟨ha, he⟩ | ⟨j, ho, hn, he⟩)
    · cases he; exact .inr ⟨rfl, ha⟩
    · cases j with
      | arr l => exact .inl ⟨l, ho, (mapM_iff hd l v).mp he⟩
      | _ => cases he
  · rintro (⟨js, ho, hf⟩ | ⟨rfl, ha⟩)
    · exact .inr ⟨_, ho, by simp, (mapM_iff hd js v).mpr hf⟩
    · exact .inl ⟨ha, rfl⟩

theorem mapField_iff {V : Type} {json proto : String} (h : json.toList = camel proto.toList) {dec : Json → Option V}
    {R : V → Json → Prop} (hd : ∀ v j, dec j = some v ↔ R v j) (ms : List (Str × Json)) (v : GoMap V) :
    get json proto ms (mapField dec) = some v ↔ MapJ R v (occJ proto ms) := by
  have he : ∀ (x : Str × V) (y : Str × Json), ((dec y.2).map fun v => (y.1, v)) = some x ↔ x.1 = y.1 ∧ R x.2 y.2 := by
    rintro ⟨k, x⟩ ⟨k', y⟩
    rw [Option.map_eq_some_iff]
    simp only [Prod.mk.injEq]
    constructor
    · rintro ⟨a, ha, rfl, rfl⟩; exact ⟨rfl, (hd _ _).mp ha⟩
    · rintro ⟨rfl, hr⟩; exact ⟨x, (hd _ _).mpr hr, rfl, rfl⟩
  rw [get_iff h]
  constructor
  · rintro (⟨ha, h0⟩ | ⟨j, ho, hn, h0⟩)
    · cases h0; exact .inr ⟨rfl, ha⟩
    · cases j with
      | obj l =>
        simp only [mapField] at h0
        split at h0
        · rename_i hnd; exact .inl ⟨l, ho, hnd, (mapM_iff he l v).mp h0⟩
        · cases h0
      | _ => cases h0
  · rintro (⟨js, ho, hnd, hf⟩ | ⟨rfl, ha⟩)
    · refine .inr ⟨_, ho, by simp, ?_⟩
      simp only [mapField]
      rw [if_pos hnd]
      exact (mapM_iff he js v).mpr hf
    · exact .inl ⟨ha, rfl⟩

/-- The names in a reader are those of the message's declaration. -/
def NamesOf (m : String) (names : List (String × String)) : Prop :=
  (∀ n ∈ names, n.1.toList = camel n.2.toList ∧ ∃ d ∈ published, d.1 = m ∧ ∃ x ∈ d.2, x.1 = n.2) ∧
  (∀ d ∈ published, d.1 = m → ∀ x ∈ d.2, ∃ n ∈ names, n.2 = x.1)

instance (m : String) (names : List (String × String)) : Decidable (NamesOf m names) := by unfold NamesOf; infer_instance

theorem message_iff {m : String} {names : List (String × String)} (hn : NamesOf m names) (e : Env) (j : Json) (ms : List (Str × Json)) :
    message e.opts names j = some ms ↔ j = .obj ms ∧ KnownJ e m ms := by
  have hk : ∀ k : Str, (names.any fun n => decide (k = n.1.toList ∨ k = n.2.toList)) = true ↔
      ∃ f ty n, Declared m f ty n ∧ (k = f.toList ∨ k = camel f.toList) := by
    intro k
    rw [List.any_eq_true]
    constructor
    · rintro ⟨n, hm, hd⟩
      obtain ⟨h1, d, hd1, hd2, x, hx, hx2⟩ := hn.1 n hm
      refine ⟨n.2, x.2.1, x.2.2, ⟨d, hd1, hd2, by rw [← hx2]; exact hx⟩, ?_⟩
      rw [← h1]
      exact (of_decide_eq_true hd).symm
    · rintro ⟨f, ty, n, ⟨d, hd1, hd2, hx⟩, hk⟩
      obtain ⟨n', hm, he⟩ := hn.2 d hd1 hd2 _ hx
      obtain ⟨h1, -⟩ := hn.1 n' hm
      refine ⟨n', hm, decide_eq_true ?_⟩
      rw [h1, he]
      exact hk.symm
  have ha : ∀ l : List (Str × Json), (e.opts.discard || l.all fun x => names.any fun n => decide (x.1 = n.1.toList ∨ x.1 = n.2.toList)) = true ↔
      KnownJ e m l := by
    intro l
    rw [Bool.or_eq_true, List.all_eq_true]
    unfold KnownJ
    simp only [hk]
  cases j with
  | obj l =>
    simp only [message, Json.obj.injEq]
    split
    · rename_i h
      rw [ha] at h
      simp only [Option.some.injEq]
      exact ⟨fun e => ⟨e, e ▸ h⟩, fun h => h.1⟩
    · rename_i h
      rw [ha] at h
      exact ⟨fun e => (by cases e), fun h' => absurd (h'.1 ▸ h'.2) h⟩
  | _ => simp [message]

/-! ## Numbers -/

theorem natOf_eq (s : Str) : Json.natOf s = digitsValue s := (Serve.digitsValue_eq s).symm

theorem digitsValue_append (a b : Str) : digitsValue (a ++ b) = digitsValue a * 10 ^ b.length + digitsValue b := by
  unfold digitsValue
  rw [List.reverse_append]
  have : ∀ x y : Str, revValue (x ++ y) = revValue x + 10 ^ x.length * revValue y := by
    intro x y
    induction x with
    | nil => simp [revValue]
    | cons c x ih => simp only [List.cons_append, revValue, ih, List.length_cons, Nat.pow_succ]; ring
  rw [this, List.length_reverse]
  ring

theorem digitsValue_zeros' (n : Nat) : digitsValue (List.replicate n '0') = 0 := by
  induction n with
  | zero => rfl
  | succ n ih =>
    rw [List.replicate_succ, show ('0' :: List.replicate n '0') = ['0'] ++ List.replicate n '0' from rfl, digitsValue_append, ih,
      show digitsValue ['0'] = 0 from rfl, Nat.zero_mul]

theorem trimZeros_spec (s : Str) : ∃ n, s = trimZeros s ++ List.replicate n '0' ∧ (trimZeros s).getLast? ≠ some '0' := by
  unfold trimZeros
  have key : ∀ r : Str, ∃ n, r = List.replicate n '0' ++ r.dropWhile (· = '0') ∧ (r.dropWhile (· = '0')).head? ≠ some '0' := by
    intro r
    induction r with
    | nil => exact ⟨0, rfl, by simp⟩
    | cons c r ih =>
      by_cases hc : c = '0'
      · subst hc
        obtain ⟨n, h1, h2⟩ := ih
        refine ⟨n + 1, ?_, ?_⟩
        · rw [List.dropWhile_cons_of_pos (by simp), List.replicate_succ, List.cons_append, ← h1]
        · rw [List.dropWhile_cons_of_pos (by simp)]; exact h2
      · rw [List.dropWhile_cons_of_neg (by simpa using hc)]
        exact ⟨0, rfl, by simpa using hc⟩
  obtain ⟨n, h1, h2⟩ := key s.reverse
  refine ⟨n, ?_, ?_⟩
  · have := congrArg List.reverse h1
    rwa [List.reverse_reverse, List.reverse_append, List.reverse_replicate] at this
  · rw [List.getLast?_reverse]; exact h2

theorem digitsValue_last {s : Str} (hd : ∀ c ∈ s, '0' ≤ c ∧ c ≤ '9') (hne : s ≠ []) (hl : s.getLast? ≠ some '0') : digitsValue s % 10 ≠ 0 := by
  unfold digitsValue
  rw [← List.head?_reverse] at hl
  cases hr : s.reverse with
  | nil => exact absurd (List.reverse_eq_nil_iff.mp hr) hne
  | cons c r =>
    rw [hr] at hl
    have hc : c ∈ s := by rw [← List.mem_reverse, hr]; simp
    obtain ⟨h1, h2⟩ := hd c hc
    have h1' : (48 : Nat) ≤ c.toNat := h1
    have h2' : c.toNat ≤ 57 := h2
    have h3 : c.toNat ≠ 48 := by
      intro h
      exact hl (by rw [List.head?_cons, Json.char_eq_ofNat h])
    rw [revValue]
    omega

theorem digitsValue_pos {s : Str} (hd : Decimals s) (h0 : s.head? ≠ some '0') : 10 ^ (s.length - 1) ≤ digitsValue s := by
  cases s with
  | nil => exact absurd rfl hd.1
  | cons c r =>
    rw [show c :: r = [c] ++ r from rfl, digitsValue_append]
    have hc := hd.2 c (by simp)
    have h1' : (48 : Nat) ≤ c.toNat := hc.1
    have h3 : c.toNat ≠ 48 := by
      intro h
      exact h0 (by rw [List.head?_cons, Json.char_eq_ofNat h])
    have : 1 ≤ digitsValue [c] := by
      show 1 ≤ (c.toNat - 48) + 10 * 0
      omega
    simp only [List.length_append, List.length_cons, List.length_nil, Nat.zero_add, Nat.add_sub_cancel_left]
    calc 10 ^ r.length = 1 * 10 ^ r.length := (Nat.one_mul _).symm
      _ ≤ digitsValue [c] * 10 ^ r.length := Nat.mul_le_mul_right _ this
      _ ≤ _ := Nat.le_add_right _ _

/-- The digits that count: no zero alone before the point, none at the end after it. -/
theorem intOf_core {i f : Str} (hi : Decimals i) (hi0 : i = ['0'] ∨ i.head? ≠ some '0') (hf : f = [] ∨ Decimals f) (e : Int) (u : Int)
    (hu : -2 ^ 32 < u ∧ u < 2 ^ 32) :
    let ip := if i = ['0'] then [] else i
    let F := trimZeros f
    Option.map (fun n : Nat => (n : Int)) (if ip = [] ∧ F = [] then some 0
      else if 0 ≤ e then
        if e.toNat < F.length then none
        else if 20 < ip.length + e.toNat then none
        else some (Json.natOf (ip ++ F) * 10 ^ (e.toNat - F.length))
      else if F ≠ [] then none
      else if Json.natOf ip % 10 ^ (-e).toNat = 0 then some (Json.natOf ip / 10 ^ (-e).toNat)
      else none) = some u ↔
    u * 10 ^ (f.length + (-e).toNat) = (digitsValue (i ++ f) : Int) * 10 ^ e.toNat ∧ (i = ['0'] → u ≠ 0 → e ≤ 20) := by
  intro ip F
  obtain ⟨n, hfn, hlast⟩ := trimZeros_spec f
  change f = F ++ _ at hfn
  change F.getLast? ≠ _ at hlast
  have hFd : ∀ c ∈ F, '0' ≤ c ∧ c ≤ '9' := by
    intro c hc
    rcases hf with rfl | hf
    · exact absurd hc (by simp [F, trimZeros])
    · exact hf.2 c (by rw [hfn]; simp [hc])
  have hip : digitsValue ip = digitsValue i := by
    show digitsValue (if i = ['0'] then [] else i) = _
    by_cases h : i = ['0']
    · rw [if_pos h, h]; rfl
    · rw [if_neg h]
  have hW : digitsValue (i ++ f) = digitsValue (ip ++ F) * 10 ^ n := by
    rw [hfn, ← List.append_assoc, digitsValue_append, digitsValue_zeros', List.length_replicate, Nat.add_zero, digitsValue_append i,
      digitsValue_append ip, hip]
  have hlen : f.length = F.length + n := by rw [hfn]; simp [F]
  have heq : u * 10 ^ (f.length + (-e).toNat) = (digitsValue (i ++ f) : Int) * 10 ^ e.toNat ↔
      u * 10 ^ (F.length + (-e).toNat) = (digitsValue (ip ++ F) : Int) * 10 ^ e.toNat := by
    rw [hlen, hW]
    have h10 : (10 : Int) ^ n ≠ 0 := by positivity
    constructor
    · intro h
      apply mul_right_cancel₀ h10
      push_cast at h
      rw [show F.length + n + (-e).toNat = F.length + (-e).toNat + n from by omega, pow_add _ _ n] at h
      rw [mul_assoc, h]; ring
    · intro h
      push_cast
      rw [show F.length + n + (-e).toNat = F.length + (-e).toNat + n from by omega, pow_add _ _ n, ← mul_assoc, h]
      ring
  rw [heq]
  have hmod : F ≠ [] → digitsValue (ip ++ F) % 10 ≠ 0 := by
    intro hF
    have := digitsValue_last hFd hF hlast
    rw [digitsValue_append]
    obtain ⟨k, hk⟩ : ∃ k, F.length = k + 1 := ⟨F.length - 1, by have := List.length_pos_of_ne_nil hF; omega⟩
    rw [hk, pow_succ, ← mul_assoc]
    omega
  have hdvd : ∀ (a : Int) (k : Nat), a * 10 ^ (k + 1) = (digitsValue (ip ++ F) : Int) → F ≠ [] → False := by
    intro a k h hF
    have := hmod hF
    rw [pow_succ, ← mul_assoc] at h
    omega
  by_cases hz : ip = [] ∧ F = []
  · rw [if_pos hz, hz.1, hz.2]
    show some (0 : Int) = some u ↔ u * _ = 0 * _ ∧ _
    rw [zero_mul, mul_eq_zero, or_iff_left (by positivity)]
    constructor
    · intro h; cases h; exact ⟨rfl, fun _ h => absurd rfl h⟩
    · rintro ⟨rfl, -⟩; rfl
  · rw [if_neg hz]
    have hne : ip = [] → i = ['0'] := by
      intro h
      by_contra h'
      have : ip = i := if_neg h'
      exact hi.1 (this ▸ h)
    by_cases he : 0 ≤ e
    · rw [if_pos he]
      have hne0 : (-e).toNat = 0 := by omega
      rw [hne0, Nat.add_zero]
      generalize hk : e.toNat = k
      by_cases hkF : k < F.length
      · rw [if_pos hkF]
        refine ⟨fun h => (by cases h), fun h => (hdvd u (F.length - k - 1) ?_ (by rintro h0; rw [h0] at hkF; simp at hkF)).elim⟩
        have h1 := h.1
        rw [show F.length = (F.length - k - 1 + 1) + k from by omega, pow_add _ _ k, ← mul_assoc] at h1
        exact mul_right_cancel₀ (by positivity) h1
      · rw [if_neg hkF]
        have hval : u * 10 ^ F.length = (digitsValue (ip ++ F) : Int) * 10 ^ k ↔ u = ((digitsValue (ip ++ F) * 10 ^ (k - F.length) : Nat) : Int) := by
          have h2 : (10 : Int) ^ k = 10 ^ (k - F.length) * 10 ^ F.length := by rw [← pow_add]; congr 1; omega
          rw [h2, ← mul_assoc]
          push_cast
          exact ⟨fun h => mul_right_cancel₀ (by positivity) h, fun h => by rw [h]⟩
        rw [hval]
        by_cases hbig : 20 < ip.length + k
        · rw [if_pos hbig]
          refine ⟨fun h => (by cases h), fun h => ?_⟩
          exfalso
          obtain ⟨hu1, hu2⟩ := h
          by_cases hip0 : ip = []
          · have hF : F ≠ [] := fun h => hz ⟨hip0, h⟩
            rw [hip0] at hbig
            have := hmod hF
            refine absurd (hu2 (hne hip0) ?_) (by simp at hbig; omega)
            intro h0
            rw [h0] at hu1
            have h3 : digitsValue (ip ++ F) * 10 ^ (k - F.length) = 0 := by exact_mod_cast hu1.symm
            rcases Nat.mul_eq_zero.mp h3 with h3 | h3
            · rw [h3] at this; exact this rfl
            · exact absurd h3 (by positivity)
          · have hi' : ip = i := by
              by_cases h : i = ['0']
              · exact absurd (if_pos h) hip0
              · exact if_neg h
            have hi1 : i.head? ≠ some '0' := by
              rcases hi0 with h | h
              · exact absurd (if_pos h) hip0
              · exact h
            have h4 := digitsValue_pos hi hi1
            have h5 : 10 ^ 20 ≤ digitsValue (ip ++ F) * 10 ^ (k - F.length) := by
              rw [digitsValue_append, hi']
              calc 10 ^ 20 ≤ 10 ^ (i.length - 1 + k) := Nat.pow_le_pow_right (by decide) (by rw [hi'] at hbig; omega)
                _ = 10 ^ (i.length - 1) * 10 ^ F.length * 10 ^ (k - F.length) := by rw [← pow_add, ← pow_add]; congr 1; omega
                _ ≤ _ := Nat.mul_le_mul_right _ (le_trans (Nat.mul_le_mul_right _ h4) (Nat.le_add_right _ _))
            have : (10 : Int) ^ 20 ≤ u := by rw [hu1]; exact_mod_cast h5
            have h32 : (2 : Int) ^ 32 < 10 ^ 20 := by norm_num
            omega
        · rw [if_neg hbig]
          rw [natOf_eq]
          simp only [Option.map_some, Option.some.injEq]
          constructor
          · rintro h; exact ⟨h.symm, fun _ _ => by omega⟩
          · rintro ⟨h, -⟩; exact h.symm
    · rw [if_neg he]
      have he0 : e.toNat = 0 := by omega
      rw [he0, pow_zero, mul_one]
      obtain ⟨k, hk⟩ : ∃ k, (-e).toNat = k + 1 := ⟨(-e).toNat - 1, by omega⟩
      by_cases hF : F ≠ []
      · rw [if_pos hF]
        refine ⟨fun h => (by cases h), fun h => (hdvd u (F.length + k) ?_ hF).elim⟩
        rw [← h.1, hk]; rfl
      · rw [if_neg hF]
        rw [not_not] at hF
        rw [hF, List.append_nil, List.length_nil, Nat.zero_add, natOf_eq]
        generalize (-e).toNat = m
        generalize digitsValue ip = D
        have hp : 0 < 10 ^ m := by positivity
        by_cases hd : D % 10 ^ m = 0
        · rw [if_pos hd]
          simp only [Option.map_some, Option.some.injEq]
          have hD : D = D / 10 ^ m * 10 ^ m := by have := Nat.div_add_mod D (10 ^ m); rw [hd] at this; rw [Nat.mul_comm]; exact this.symm
          constructor
          · intro h
            refine ⟨?_, fun _ _ => by omega⟩
            rw [← h]
            exact_mod_cast hD.symm
          · rintro ⟨h, -⟩
            have h' : u * 10 ^ m = ((D / 10 ^ m : Nat) : Int) * 10 ^ m := by rw [h]; exact_mod_cast hD
            exact (mul_right_cancel₀ (by positivity) h').symm
        · rw [if_neg hd]
          refine ⟨fun h => (by cases h), fun h => absurd ?_ hd⟩
          have h6 := congrArg (· % (10 : Int) ^ m) h.1
          simp only [Int.mul_emod_left] at h6
          exact_mod_cast h6.symm

theorem intOf_map (p : Json.NumParts) : intOf p =
    let ip := if p.int = ['0'] then [] else p.int
    let F := trimZeros p.frac
    (Option.map (fun n : Nat => (n : Int)) (if ip = [] ∧ F = [] then some 0
      else if 0 ≤ p.exp then
        if p.exp.toNat < F.length then none
        else if 20 < ip.length + p.exp.toNat then none
        else some (Json.natOf (ip ++ F) * 10 ^ (p.exp.toNat - F.length))
      else if F ≠ [] then none
      else if Json.natOf ip % 10 ^ (-p.exp).toNat = 0 then some (Json.natOf ip / 10 ^ (-p.exp).toNat)
      else none)).map fun n => (if p.neg then -1 else 1) * n := by
  extract_lets ip F
  unfold intOf
  simp only
  change (if ip = [] ∧ F = [] then _ else _) = _
  by_cases h1 : ip = [] ∧ F = []
  · rw [if_pos h1, if_pos h1]; simp
  · rw [if_neg h1, if_neg h1]
    by_cases h2 : 0 ≤ p.exp
    · rw [if_pos h2, if_pos h2]
      change (if p.exp.toNat < F.length then _ else _) = _
      by_cases h3 : p.exp.toNat < F.length
      · rw [if_pos h3, if_pos h3]; rfl
      · rw [if_neg h3, if_neg h3]
        change (if 20 < ip.length + p.exp.toNat then _ else _) = _
        by_cases h4 : 20 < ip.length + p.exp.toNat
        · rw [if_pos h4, if_pos h4]; rfl
        · rw [if_neg h4, if_neg h4]; rfl
    · rw [if_neg h2, if_neg h2]
      change (if F ≠ [] then _ else _) = _
      by_cases h3 : F ≠ []
      · rw [if_pos h3, if_pos h3]; rfl
      · rw [if_neg h3, if_neg h3]
        change (if Json.natOf ip % 10 ^ (-p.exp).toNat = 0 then _ else _) = _
        by_cases h4 : Json.natOf ip % 10 ^ (-p.exp).toNat = 0
        · rw [if_pos h4, if_pos h4]; rfl
        · rw [if_neg h4, if_neg h4]; rfl

theorem int32Of_iff (x v : Int) : int32Of x = some v ↔ x = v ∧ GoInt32 v := by
  unfold int32Of
  have : Wire.int32Ok x = true ↔ GoInt32 x := by simp [Wire.int32Ok, GoInt32]
  split
  · rename_i h
    rw [this] at h
    simp only [Option.some.injEq]
    exact ⟨fun e => ⟨e, e ▸ h⟩, fun e => e.1⟩
  · rename_i h
    rw [this] at h
    exact ⟨fun e => (by cases e), fun e => absurd (e.1 ▸ e.2) h⟩

theorem number_iff (t : Str) (v : Int) : ((Json.numParts t).bind intOf).bind int32Of = some v ↔ IntNum v t := by
  have key : ∀ (neg : Bool) (i f : Str) (e : Int), NumText neg i f e t → GoInt32 v → (intOf ⟨neg, i, f, e⟩ = some v ↔
      v * 10 ^ (f.length + (-e).toNat) = (if neg then -1 else 1) * (digitsValue (i ++ f) : Int) * 10 ^ e.toNat ∧
      (i = ['0'] → v ≠ 0 → e ≤ 20)) := by
    intro neg i f e ⟨fp, ep, _, hi, hi0, hf, _⟩ hv
    have hf' : f = [] ∨ Decimals f := hf.imp (·.2) (·.2)
    rw [intOf_map]
    unfold GoInt32 at hv
    cases neg with
    | false =>
      have := intOf_core hi hi0 hf' e v (by omega)
      simp only at this ⊢
      simp only [Bool.false_eq_true, if_false, one_mul, Option.map_id']
      exact this
    | true =>
      have := intOf_core hi hi0 hf' e (-v) (by omega)
      simp only at this ⊢
      simp only [if_true, neg_mul, one_mul]
      rw [neg_mul, neg_eq_iff_eq_neg, show -v ≠ 0 ↔ v ≠ 0 by omega] at this
      rw [← this]
      generalize Option.map (fun n : Nat => (n : Int)) _ = o
      cases o with
      | none => simp
      | some x => simp only [Option.map_some, Option.some.injEq]; omega
  constructor
  · intro h
    rw [Option.bind_eq_some_iff] at h
    obtain ⟨x, hx, h32⟩ := h
    rw [int32Of_iff] at h32
    obtain ⟨rfl, hv⟩ := h32
    rw [Option.bind_eq_some_iff] at hx
    obtain ⟨⟨neg, i, f, e⟩, hp, hx⟩ := hx
    have hn := Json.numParts_sound hp
    obtain ⟨h1, h2⟩ := (key neg i f e hn hv).mp hx
    exact ⟨neg, i, f, e, hn, h1, h2, hv⟩
  · rintro ⟨neg, i, f, e, hn, h1, h2, hv⟩
    rw [Json.numParts_of hn, Option.bind_some, (key neg i f e hn hv).mpr ⟨h1, h2⟩, Option.bind_some]
    exact (int32Of_iff v v).mpr ⟨rfl, hv⟩

theorem asInt_iff (v : Int) (j : Json) : asInt j = some v ↔ ∃ t, (j = .num t ∨ j = .str t) ∧ IntNum v t := by
  cases j with
  | num t =>
    rw [asInt, number_iff]
    exact ⟨fun h => ⟨t, .inl rfl, h⟩, fun ⟨t', h1, h2⟩ => by rcases h1 with h1 | h1 <;> cases h1; exact h2⟩
  | str t =>
    rw [asInt, number_iff]
    exact ⟨fun h => ⟨t, .inr rfl, h⟩, fun ⟨t', h1, h2⟩ => by rcases h1 with h1 | h1 <;> cases h1; exact h2⟩
  | _ => simp [asInt]

theorem intField_iff {json proto : String} (h : json.toList = camel proto.toList) (ms : List (Str × Json)) (v : Int) :
    get json proto ms intField = some v ↔ IntJ v (occJ proto ms) := by
  rw [get_iff h]
  constructor
  · rintro (⟨ha, he⟩ | ⟨j, ho, hn, he⟩)
    · cases he; exact .inr ⟨rfl, ha⟩
    · obtain ⟨t, ht, hv⟩ := (asInt_iff v j).mp he
      exact .inl ⟨t, by rcases ht with rfl | rfl <;> simp [ho], hv⟩
  · rintro (⟨t, ho, hv⟩ | ⟨rfl, ha⟩)
    · rcases ho with ho | ho
      · exact .inr ⟨_, ho, by simp, (asInt_iff v _).mpr ⟨t, .inl rfl, hv⟩⟩
      · exact .inr ⟨_, ho, by simp, (asInt_iff v _).mpr ⟨t, .inr rfl, hv⟩⟩
    · exact .inl ⟨ha, rfl⟩

theorem enumField_iff {json proto : String} (h : json.toList = camel proto.toList) (e : Env) {table : List (String × Int)} {ty : String}
    (ht : table = enumNames ty) (hnd : (table.map (·.1)).Nodup) (ms : List (Str × Json)) (v : Int) :
    get json proto ms (enumField e.opts table) = some v ↔ EnumJ e ty v (occJ proto ms) := by
  have hfind : ∀ s : Str, (∃ x, table.find? (fun x => decide (x.1.toList = s)) = some x ∧ x.2 = v) ↔
      ∃ n : String, s = n.toList ∧ (n, v) ∈ enumNames ty := by
    intro s
    rw [← ht]
    constructor
    · rintro ⟨x, hx, rfl⟩
      have := List.find?_some hx
      exact ⟨x.1, (of_decide_eq_true this).symm, List.mem_of_find?_eq_some hx⟩
    · rintro ⟨n, rfl, hm⟩
      cases hx : table.find? (fun x => decide (x.1.toList = n.toList)) with
      | none =>
        have := List.find?_eq_none.mp hx _ hm
        simp at this
      | some x =>
        have h1 : x.1.toList = n.toList := by have := List.find?_some hx; simpa using this
        have h2 := List.mem_of_find?_eq_some hx
        have h3 : x.1 = n := String.toList_inj.mp h1
        refine ⟨x, rfl, ?_⟩
        have := List.inj_on_of_nodup_map hnd h2 hm h3
        rw [this]
  rw [get_iff h]
  constructor
  · rintro (⟨ha, he⟩ | ⟨j, ho, hn, he⟩)
    · cases he; exact .inr (.inr (.inl ⟨rfl, ha⟩))
    · change asEnum e.opts table j = some v at he
      cases j with
      | str s =>
        simp only [asEnum] at he
        split at he
        · rename_i x hx
          cases he
          obtain ⟨n, rfl, hm⟩ := (hfind s).mp ⟨x, hx, rfl⟩
          exact .inl ⟨n, ho, hm⟩
        · rename_i hx
          split at he
          · rename_i hl
            cases he
            refine .inr (.inr (.inr ⟨rfl, hl, s, ho, fun n hn => ?_⟩))
            have := List.find?_eq_none.mp hx n (ht ▸ hn)
            simpa using this
          · cases he
      | num t =>
        rw [asEnum, number_iff] at he
        exact .inr (.inl ⟨t, ho, he⟩)
      | _ => cases he
  · rintro (⟨n, ho, hm⟩ | ⟨t, ho, hv⟩ | ⟨rfl, ha⟩ | ⟨rfl, hl, s, ho, hs⟩)
    · refine .inr ⟨_, ho, by simp, ?_⟩
      obtain ⟨x, hx, hv⟩ := (hfind n.toList).mpr ⟨n, rfl, hm⟩
      change asEnum e.opts table (.str n.toList) = some v
      rw [asEnum, hx]
      exact congrArg some hv
    · exact .inr ⟨_, ho, by simp, (number_iff t v).mpr hv⟩
    · exact .inl ⟨ha, rfl⟩
    · refine .inr ⟨_, ho, by simp, ?_⟩
      change asEnum e.opts table (.str s) = some 0
      rw [asEnum, List.find?_eq_none.mpr (fun x hx => by simpa using hs x (ht ▸ hx))]
      exact if_pos hl

/-! ## Doubles -/

theorem asDouble_iff (fl : FloatText) (x : F64) (j : Json) : asDouble fl j = some x ↔ DoubleJ1 fl x j := by
  have hnot : ∀ c r, ¬ (c = '-' ∨ c.isDigit = true) → ¬ IsNumber (c :: r) := by
    intro c r hc hn
    obtain ⟨c', r', he, h'⟩ := Json.isNumber_head hn
    cases he
    exact hc h'
  have h1 : ¬ IsNumber "NaN".toList := hnot _ _ (by decide)
  have h2 : ¬ IsNumber "Infinity".toList := hnot _ _ (by decide)
  have h3 : ¬ IsNumber "-Infinity".toList := by rw [← Json.numberOk_iff]; decide
  unfold DoubleJ1
  cases j with
  | num t => simp [asDouble]
  | str s =>
    simp only [asDouble]
    by_cases e1 : s = "NaN".toList
    · rw [if_pos e1, e1]
      constructor
      · intro h; cases h; exact .inr (.inr (.inl ⟨rfl, rfl⟩))
      · rintro (⟨t, h, -⟩ | ⟨t, h, hn, -⟩ | ⟨h, rfl⟩ | ⟨h, -⟩ | ⟨h, -⟩)
        · cases h
        · cases h; exact absurd hn h1
        · rfl
        · exact absurd (Json.str.inj h) (by decide)
        · exact absurd (Json.str.inj h) (by decide)
    rw [if_neg e1]
    by_cases e2 : s = "Infinity".toList
    · rw [if_pos e2, e2]
      constructor
      · intro h; cases h; exact .inr (.inr (.inr (.inl ⟨rfl, rfl⟩)))
      · rintro (⟨t, h, -⟩ | ⟨t, h, hn, -⟩ | ⟨h, -⟩ | ⟨h, rfl⟩ | ⟨h, -⟩)
        · cases h
        · cases h; exact absurd hn h2
        · exact absurd (Json.str.inj h) (by decide)
        · rfl
        · exact absurd (Json.str.inj h) (by decide)
    rw [if_neg e2]
    by_cases e3 : s = "-Infinity".toList
    · rw [if_pos e3, e3]
      constructor
      · intro h; cases h; exact .inr (.inr (.inr (.inr ⟨rfl, rfl⟩)))
      · rintro (⟨t, h, -⟩ | ⟨t, h, hn, -⟩ | ⟨h, -⟩ | ⟨h, -⟩ | ⟨h, rfl⟩)
        · cases h
        · cases h; exact absurd hn h3
        · exact absurd (Json.str.inj h) (by decide)
        · exact absurd (Json.str.inj h) (by decide)
        · rfl
    rw [if_neg e3]
    constructor
    · intro h
      by_cases hn : Json.numberOk s = true
      · rw [if_pos hn] at h
        exact .inr (.inl ⟨s, rfl, (Json.numberOk_iff s).mp hn, h⟩)
      · rw [if_neg hn] at h; cases h
    · rintro (⟨t, h, -⟩ | ⟨t, h, hn, hp⟩ | ⟨h, -⟩ | ⟨h, -⟩ | ⟨h, -⟩)
      · cases h
      · cases h; rw [if_pos ((Json.numberOk_iff s).mpr hn)]; exact hp
      · cases h; exact absurd rfl e1
      · cases h; exact absurd rfl e2
      · cases h; exact absurd rfl e3
  | _ => simp [asDouble]

theorem doubleField_iff {json proto : String} (h : json.toList = camel proto.toList) (fl : FloatText) (ms : List (Str × Json)) (x : F64) :
    get json proto ms (doubleField fl) = some x ↔ DoubleJ fl x (occJ proto ms) := by
  rw [get_iff h]
  constructor
  · rintro (⟨ha, he⟩ | ⟨j, ho, hn, he⟩)
    · cases he; exact .inr ⟨rfl, ha⟩
    · exact .inl ⟨j, ho, (asDouble_iff fl x j).mp he⟩
  · rintro (⟨j, ho, hv⟩ | ⟨rfl, ha⟩)
    · refine .inr ⟨j, ho, ?_, (asDouble_iff fl x j).mpr hv⟩
      rintro rfl
      rcases hv with ⟨_, h, _⟩ | ⟨_, h, _⟩ | ⟨h, _⟩ | ⟨h, _⟩ | ⟨h, _⟩ <;> cases h
    · exact .inl ⟨ha, rfl⟩

/-! ## Times -/

theorem fixed_iff {w : Nat} (hw : 0 < w) (s r : Str) (n : Nat) : fixed w s = some (n, r) ↔ ∃ x, s = x ++ r ∧ FixedDigits w n x := by
  unfold fixed
  constructor
  · intro h
    split at h
    · rename_i hc
      simp only [Option.some.injEq, Prod.mk.injEq] at h
      obtain ⟨rfl, rfl⟩ := h
      refine ⟨s.take w, (List.take_append_drop w s).symm, hc.1, (Json.decimals_all _).mpr ⟨?_, hc.2⟩, (natOf_eq _).symm⟩
      intro h0
      rw [h0] at hc
      have := hc.1
      simp at this
      omega
    · cases h
  · rintro ⟨x, rfl, hl, hd, rfl⟩
    have h1 : (x ++ r).take w = x := by rw [← hl, List.take_left]
    have h2 : (x ++ r).drop w = r := by rw [← hl, List.drop_left]
    rw [h1, h2, if_pos ⟨hl, ((Json.decimals_all x).mp hd).2⟩, natOf_eq]

theorem lit_iff (c : Char) (s r : Str) : lit c s = some r ↔ s = c :: r := by
  cases s with
  | nil => simp [lit]
  | cons d s =>
    simp only [lit, List.cons.injEq]
    split
    · rename_i h; subst h; simp
    · rename_i h; simp [h]

theorem fraction_sound {s z : Str} {n : Int} (h : fraction s = some (n, z)) : ∃ fs, s = fs ++ z ∧ FracText n fs := by
  cases s with
  | nil => cases h; exact ⟨[], rfl, .inl ⟨rfl, rfl⟩⟩
  | cons c s =>
    simp only [fraction] at h
    split at h
    · rename_i hc
      subst hc
      split at h
      · cases h
      · rename_i hd
        rw [not_or] at hd
        simp only [Option.some.injEq, Prod.mk.injEq] at h
        obtain ⟨rfl, rfl⟩ := h
        refine ⟨'.' :: s.takeWhile (·.isDigit), by rw [List.cons_append, List.takeWhile_append_dropWhile], .inr ⟨_, rfl, ?_, by omega, ?_⟩⟩
        · exact (Json.decimals_all _).mpr ⟨hd.1, Json.all_takeWhile _ _⟩
        · rw [natOf_eq]
    · cases h; exact ⟨[], rfl, .inl ⟨rfl, rfl⟩⟩

theorem fraction_of {fs z : Str} {n : Int} (h : FracText n fs) (hz : ∃ c r, z = c :: r ∧ c ≠ '.' ∧ c.isDigit = false) :
    fraction (fs ++ z) = some (n, z) := by
  obtain ⟨c, r, rfl, h1, h2⟩ := hz
  rcases h with ⟨rfl, rfl⟩ | ⟨ds, rfl, hd, hl, rfl⟩
  · simp only [List.nil_append, fraction, if_neg h1]
  · obtain ⟨t1, t2⟩ := Json.takeWhile_append_of (p := (·.isDigit)) (a := ds) (b := c :: r)
      (by have := ((Json.decimals_all ds).mp hd).2; rw [List.all_eq_true] at this; exact this) (by simpa using h2)
    simp only [List.cons_append, fraction, if_true]
    rw [t1, t2, if_neg (by rw [not_or]; exact ⟨hd.1, by omega⟩), natOf_eq]

theorem zone_iff (s : Str) (off : Int) : zone s = some off ↔ ZoneText off s := by
  unfold zone ZoneText
  by_cases hz : s = ['Z']
  · rw [if_pos hz]
    constructor
    · intro h; cases h; exact .inl ⟨hz, rfl⟩
    · rintro (⟨-, rfl⟩ | ⟨sign, h, m, sh, sm, he, _, _, _, _, hs⟩)
      · rfl
      · rw [hz] at he; simp at he
  · rw [if_neg hz]
    cases s with
    | nil => simp
    | cons c s =>
      simp only [bind, Option.bind_eq_some_iff, Prod.exists]
      constructor
      · rintro ⟨h, r1, e1, r2, e2, m, r3, e3, e4⟩
        obtain ⟨sh, rfl, hh⟩ := (fixed_iff (by decide) _ _ _).mp e1
        rw [lit_iff] at e2
        subst e2
        obtain ⟨sm, rfl, hm⟩ := (fixed_iff (by decide) _ _ _).mp e3
        split at e4
        · rename_i hc
          obtain ⟨rfl, hh2, hm2, hs⟩ := hc
          refine .inr ⟨c, h, m, sh, sm, by rw [List.append_nil], hh, hm, hh2, hm2, ?_⟩
          cases e4
          rcases hs with rfl | rfl
          · exact .inl ⟨rfl, by rw [if_neg (by decide), one_mul]⟩
          · exact .inr ⟨rfl, by rw [if_pos rfl, neg_one_mul]⟩
        · cases e4
      · rintro (⟨h, -⟩ | ⟨sign, h, m, sh, sm, he, hh, hm, hh2, hm2, hs⟩)
        · exact absurd h hz
        · simp only [List.cons.injEq] at he
          obtain ⟨rfl, rfl⟩ := he
          refine ⟨h, ':' :: sm, (fixed_iff (by decide) _ _ _).mpr ⟨sh, rfl, hh⟩, sm, (lit_iff _ _ _).mpr rfl, m, [],
            (fixed_iff (by decide) _ _ _).mpr ⟨sm, (List.append_nil _).symm, hm⟩, ?_⟩
          rcases hs with ⟨rfl, rfl⟩ | ⟨rfl, rfl⟩
          · rw [if_pos ⟨rfl, hh2, hm2, .inl rfl⟩, if_neg (by decide), one_mul]
          · rw [if_pos ⟨rfl, hh2, hm2, .inr rfl⟩, if_pos rfl, neg_one_mul]

theorem zone_head {off : Int} {s : Str} (h : ZoneText off s) : ∃ c r, s = c :: r ∧ c ≠ '.' ∧ c.isDigit = false := by
  rcases h with ⟨rfl, -⟩ | ⟨sign, h, m, sh, sm, rfl, _, _, _, _, hs⟩
  · exact ⟨_, _, rfl, by decide, by decide⟩
  · refine ⟨_, _, rfl, ?_, ?_⟩ <;> rcases hs with ⟨rfl, -⟩ | ⟨rfl, -⟩ <;> decide

theorem monthLengths_range (y : Nat) : monthLengths y = (List.range 12).map fun i => Serve.daysIn y (i + 1) := by
  apply List.ext_getElem?
  intro i
  by_cases h : i < 12
  · have := Serve.daysIn_eq y (i + 1) (by omega) (by omega)
    rw [Nat.add_sub_cancel] at this
    rw [this]
    simp [h]
  · rw [List.getElem?_eq_none (by simp [monthLengths]; omega), List.getElem?_eq_none (by simp; omega)]

theorem monthLengths_400 (y : Nat) : monthLengths (y + 400) = monthLengths y := by
  have : Leap (y + 400) ↔ Leap y := by unfold Leap; omega
  unfold monthLengths
  simp only [this]

theorem month_range {y m l : Nat} (h1 : 1 ≤ m) : (monthLengths y)[m - 1]? = some l ↔ m ≤ 12 ∧ l = Serve.daysIn y m := by
  constructor
  · intro h
    have : m ≤ 12 := by
      have := (List.getElem?_eq_some_iff.mp h).1
      simp [monthLengths] at this
      omega
    refine ⟨this, ?_⟩
    rw [Serve.daysIn_eq y m h1 this] at h
    exact (Option.some.inj h).symm
  · rintro ⟨h2, rfl⟩; exact Serve.daysIn_eq y m h1 h2

theorem daysTo_eq (y m d : Nat) (h2 : m ≤ 12) : daysTo y m d = dayNumber (y + 400) m d := by
  unfold daysTo dayNumber daysBeforeYear
  rw [monthLengths_400, monthLengths_range, ← List.map_take, List.take_range, Nat.min_eq_left (by omega)]
  rfl

theorem asTime_iff (t : Timestamp) (j : Json) : asTime j = some t ↔ TimeJ t j := by
  cases j with
  | str s =>
    constructor
    · intro k0
      rw [asTime] at k0
      obtain ⟨⟨y, r1⟩, e1, k1⟩ := Option.bind_eq_some_iff.mp k0
      obtain ⟨r2, l1, k2⟩ := Option.bind_eq_some_iff.mp k1
      obtain ⟨⟨m, r3⟩, e2, k3⟩ := Option.bind_eq_some_iff.mp k2
      obtain ⟨r4, l2, k4⟩ := Option.bind_eq_some_iff.mp k3
      obtain ⟨⟨d, r5⟩, e3, k5⟩ := Option.bind_eq_some_iff.mp k4
      obtain ⟨r6, l3, k6⟩ := Option.bind_eq_some_iff.mp k5
      obtain ⟨⟨hh, r7⟩, e4, k7⟩ := Option.bind_eq_some_iff.mp k6
      obtain ⟨r8, l4, k8⟩ := Option.bind_eq_some_iff.mp k7
      obtain ⟨⟨mm, r9⟩, e5, k9⟩ := Option.bind_eq_some_iff.mp k8
      obtain ⟨r10, l5, k10⟩ := Option.bind_eq_some_iff.mp k9
      obtain ⟨⟨ss, r11⟩, e6, k11⟩ := Option.bind_eq_some_iff.mp k10
      obtain ⟨⟨n, r12⟩, ef, k12⟩ := Option.bind_eq_some_iff.mp k11
      obtain ⟨off, ez, k13⟩ := Option.bind_eq_some_iff.mp k12
      simp only at k13
      have e := k13
      clear k0 k1 k2 k3 k4 k5 k6 k7 k8 k9 k10 k11 k12 k13
      rw [lit_iff] at l1 l2 l3 l4 l5
      subst l1 l2 l3 l4 l5
      obtain ⟨sy, rfl, hy⟩ := (fixed_iff (by decide) _ _ _).mp e1
      obtain ⟨sm, rfl, hm⟩ := (fixed_iff (by decide) _ _ _).mp e2
      obtain ⟨sd, rfl, hd⟩ := (fixed_iff (by decide) _ _ _).mp e3
      obtain ⟨sh, rfl, hh'⟩ := (fixed_iff (by decide) _ _ _).mp e4
      obtain ⟨si, rfl, hi⟩ := (fixed_iff (by decide) _ _ _).mp e5
      obtain ⟨st, rfl, hs⟩ := (fixed_iff (by decide) _ _ _).mp e6
      obtain ⟨fs, rfl, hf⟩ := fraction_sound ef
      rw [zone_iff] at ez
      split at e
      · rename_i hc
        obtain ⟨c1, c2, c3, c4, c5, c6, c7, c8, c9⟩ := hc
        cases e
        refine ⟨_, rfl, ⟨y, m, d, hh, mm, ss, sy, sm, sd, sh, si, st, fs, r12, Serve.daysIn y m, off, hy, hm, hd, hh', hi, hs, rfl, c1,
          (month_range c1).mpr ⟨c2, rfl⟩, c3, c4, c5, c6, c7, hf, ez, ?_⟩, c8, c9⟩
        rw [daysTo_eq y m d c2, daysTo_eq 1970 1 1 (by decide), show dayNumber (1970 + 400) 1 1 = dayNumber 2370 1 1 from rfl]
        simp only
        omega
      · cases e
    · rintro ⟨s', hs', ⟨y, m, d, hh, mm, ss, sy, sm, sd, sh, si, st, fs, zs, l, off, hy, hm, hd, hh', hi, hs, rfl, c1, hl, c3, c4, c5, c6, c7, hf, ez, e⟩, c8, c9⟩
      cases hs'
      obtain ⟨c2, rfl⟩ := (month_range c1).mp hl
      rw [asTime]
      refine Option.bind_eq_some_iff.mpr ⟨(y, _), (fixed_iff (by decide) _ _ _).mpr ⟨sy, rfl, hy⟩, ?_⟩
      refine Option.bind_eq_some_iff.mpr ⟨_, (lit_iff _ _ _).mpr rfl, ?_⟩
      refine Option.bind_eq_some_iff.mpr ⟨(m, _), (fixed_iff (by decide) _ _ _).mpr ⟨sm, rfl, hm⟩, ?_⟩
      refine Option.bind_eq_some_iff.mpr ⟨_, (lit_iff _ _ _).mpr rfl, ?_⟩
      refine Option.bind_eq_some_iff.mpr ⟨(d, _), (fixed_iff (by decide) _ _ _).mpr ⟨sd, rfl, hd⟩, ?_⟩
      refine Option.bind_eq_some_iff.mpr ⟨_, (lit_iff _ _ _).mpr rfl, ?_⟩
      refine Option.bind_eq_some_iff.mpr ⟨(hh, _), (fixed_iff (by decide) _ _ _).mpr ⟨sh, rfl, hh'⟩, ?_⟩
      refine Option.bind_eq_some_iff.mpr ⟨_, (lit_iff _ _ _).mpr rfl, ?_⟩
      refine Option.bind_eq_some_iff.mpr ⟨(mm, _), (fixed_iff (by decide) _ _ _).mpr ⟨si, rfl, hi⟩, ?_⟩
      refine Option.bind_eq_some_iff.mpr ⟨_, (lit_iff _ _ _).mpr rfl, ?_⟩
      refine Option.bind_eq_some_iff.mpr ⟨(ss, _), (fixed_iff (by decide) _ _ _).mpr ⟨st, rfl, hs⟩, ?_⟩
      refine Option.bind_eq_some_iff.mpr ⟨(t.nanos, zs), fraction_of hf (zone_head ez), ?_⟩
      refine Option.bind_eq_some_iff.mpr ⟨off, (zone_iff _ _).mpr ez, ?_⟩
      simp only
      have hsec : ((((daysTo y m d : Int) - daysTo 1970 1 1) * 24 + hh) * 60 + mm) * 60 + ss - off = t.seconds := by
        rw [daysTo_eq y m d c2, daysTo_eq 1970 1 1 (by decide), show dayNumber (1970 + 400) 1 1 = dayNumber 2370 1 1 from rfl]
        omega
      rw [hsec, if_pos ⟨c1, c2, c3, c4, c5, c6, c7, c8, c9⟩]
  | _ => simp [asTime, TimeJ]

/-! ## Extensions and messages -/

theorem asAny_iff (e : Env) (a : AnyPb) (j : Json) : asAny e j = some a ↔ AnyJ e a j := by
  have hc : "@type".toList = camel "@type".toList := by decide
  cases j with
  | obj ms =>
    simp only [asAny, AnyJ, Json.obj.injEq, exists_eq_left']
    rw [occs_eq hc]
    by_cases hm : ms = []
    · rw [if_pos hm, hm]
      have h0 : occJ "@type" [] = [] := rfl
      constructor
      · intro h; cases h; exact .inl ⟨rfl, rfl⟩
      · rintro (⟨rfl, -⟩ | ⟨rfl, -⟩ | ⟨h, -⟩)
        · rfl
        · rfl
        · rw [h0] at h; cases h
    · rw [if_neg hm]
      generalize ho : occJ "@type" ms = o
      constructor
      · intro h
        split at h
        · split at h
          · rename_i hl; cases h; exact .inr (.inl ⟨rfl, hl, rfl⟩)
          · cases h
        · rw [Option.map_eq_some_iff] at h
          obtain ⟨v, hv, rfl⟩ := h
          exact .inr (.inr ⟨rfl, hv⟩)
        · cases h
      · rintro (⟨rfl, h⟩ | ⟨rfl, hl, h⟩ | ⟨h, hv⟩)
        · exact absurd h hm
        · rw [h]; exact if_pos hl
        · rw [h]
          simp only [hv, Option.map_some]
  | _ => simp [asAny, AnyJ]

theorem bounds_names : bounds = enumNames "FilterBounds" := rfl
theorem bounds_nodup : (bounds.map (·.1)).Nodup := by decide
theorem types_names : types = enumNames "Type" := rfl
theorem types_nodup : (types.map (·.1)).Nodup := by decide

theorem asData_iff (e : Env) (v : FilterableData) (j : Json) : asData e j = some v ↔ DataJ e v j := by
  have hn : NamesOf "FilterableData" [("tags", "tags"), ("stringArgs", "string_args"), ("doubleArgs", "double_args"), ("creationTime", "creation_time")] := by decide +kernel
  constructor
  · intro k0
    obtain ⟨ms, hm, k1⟩ := Option.bind_eq_some_iff.mp k0
    obtain ⟨hj, hk⟩ := (message_iff hn e j ms).mp hm
    obtain ⟨x1, h1, k2⟩ := Option.bind_eq_some_iff.mp k1
    obtain ⟨x2, h2, k3⟩ := Option.bind_eq_some_iff.mp k2
    obtain ⟨x3, h3, k4⟩ := Option.bind_eq_some_iff.mp k3
    obtain ⟨x4, h4, k5⟩ := Option.bind_eq_some_iff.mp k4
    cases k5
    exact ⟨ms, hj, hk, ⟨⟨1, by decide⟩, (listField_iff rfl asStr_iff ms _).mp h1⟩,
      ⟨⟨2, by decide⟩, (mapField_iff rfl asStr_iff ms _).mp h2⟩,
      ⟨⟨3, by decide⟩, (mapField_iff rfl (asDouble_iff e.fl) ms _).mp h3⟩,
      ⟨⟨4, by decide⟩, (msgField_iff rfl asTime_iff ms _).mp h4⟩⟩
  · rintro ⟨ms, hj, hk, ⟨-, h1⟩, ⟨-, h2⟩, ⟨-, h3⟩, ⟨-, h4⟩⟩
    refine Option.bind_eq_some_iff.mpr ⟨ms, (message_iff hn e j ms).mpr ⟨hj, hk⟩, ?_⟩
    refine Option.bind_eq_some_iff.mpr ⟨_, (listField_iff rfl asStr_iff ms _).mpr h1, ?_⟩
    refine Option.bind_eq_some_iff.mpr ⟨_, (mapField_iff rfl asStr_iff ms _).mpr h2, ?_⟩
    refine Option.bind_eq_some_iff.mpr ⟨_, (mapField_iff rfl (asDouble_iff e.fl) ms _).mpr h3, ?_⟩
    refine Option.bind_eq_some_iff.mpr ⟨_, (msgField_iff rfl asTime_iff ms _).mpr h4, ?_⟩
    rfl

theorem asTicket_iff (e : Env) (v : Ticket) (j : Json) : asTicket e j = some v ↔ TicketJ e v j := by
  have hn : NamesOf "Ticket" [("id", "id"), ("expirationTime", "expiration_time"), ("attributes", "attributes"), ("extensions", "extensions")] := by decide +kernel
  constructor
  · intro k0
    obtain ⟨ms, hm, k1⟩ := Option.bind_eq_some_iff.mp k0
    obtain ⟨hj, hk⟩ := (message_iff hn e j ms).mp hm
    obtain ⟨x1, h1, k2⟩ := Option.bind_eq_some_iff.mp k1
    obtain ⟨x2, h2, k3⟩ := Option.bind_eq_some_iff.mp k2
    obtain ⟨x3, h3, k4⟩ := Option.bind_eq_some_iff.mp k3
    obtain ⟨x4, h4, k5⟩ := Option.bind_eq_some_iff.mp k4
    cases k5
    exact ⟨ms, hj, hk, ⟨⟨1, by decide⟩, (strOf_iff rfl ms _).mp h1⟩,
      ⟨⟨2, by decide⟩, (msgField_iff rfl asTime_iff ms _).mp h2⟩,
      ⟨⟨3, by decide⟩, (msgField_iff rfl (asData_iff e) ms _).mp h3⟩,
      ⟨⟨4, by decide⟩, (mapField_iff rfl (asAny_iff e) ms _).mp h4⟩⟩
  · rintro ⟨ms, hj, hk, ⟨-, h1⟩, ⟨-, h2⟩, ⟨-, h3⟩, ⟨-, h4⟩⟩
    refine Option.bind_eq_some_iff.mpr ⟨ms, (message_iff hn e j ms).mpr ⟨hj, hk⟩, ?_⟩
    refine Option.bind_eq_some_iff.mpr ⟨_, (strOf_iff rfl ms _).mpr h1, ?_⟩
    refine Option.bind_eq_some_iff.mpr ⟨_, (msgField_iff rfl asTime_iff ms _).mpr h2, ?_⟩
    refine Option.bind_eq_some_iff.mpr ⟨_, (msgField_iff rfl (asData_iff e) ms _).mpr h3, ?_⟩
    refine Option.bind_eq_some_iff.mpr ⟨_, (mapField_iff rfl (asAny_iff e) ms _).mpr h4, ?_⟩
    rfl

theorem asAssignment_iff (e : Env) (v : Assignment) (j : Json) : asAssignment e j = some v ↔ AssignmentJ e v j := by
  have hn : NamesOf "Assignment" [("connection", "connection"), ("extensions", "extensions")] := by decide +kernel
  constructor
  · intro k0
    obtain ⟨ms, hm, k1⟩ := Option.bind_eq_some_iff.mp k0
    obtain ⟨hj, hk⟩ := (message_iff hn e j ms).mp hm
    obtain ⟨x1, h1, k2⟩ := Option.bind_eq_some_iff.mp k1
    obtain ⟨x2, h2, k3⟩ := Option.bind_eq_some_iff.mp k2
    cases k3
    exact ⟨ms, hj, hk, ⟨⟨1, by decide⟩, (strOf_iff rfl ms _).mp h1⟩,
      ⟨⟨2, by decide⟩, (mapField_iff rfl (asAny_iff e) ms _).mp h2⟩⟩
  · rintro ⟨ms, hj, hk, ⟨-, h1⟩, ⟨-, h2⟩⟩
    refine Option.bind_eq_some_iff.mpr ⟨ms, (message_iff hn e j ms).mpr ⟨hj, hk⟩, ?_⟩
    refine Option.bind_eq_some_iff.mpr ⟨_, (strOf_iff rfl ms _).mpr h1, ?_⟩
    refine Option.bind_eq_some_iff.mpr ⟨_, (mapField_iff rfl (asAny_iff e) ms _).mpr h2, ?_⟩
    rfl

theorem asRoster_iff (e : Env) (v : Roster) (j : Json) : asRoster e j = some v ↔ RosterJ e v j := by
  have hn : NamesOf "Roster" [("name", "name"), ("assignment", "assignment"), ("tickets", "tickets"), ("extensions", "extensions")] := by decide +kernel
  constructor
  · intro k0
    obtain ⟨ms, hm, k1⟩ := Option.bind_eq_some_iff.mp k0
    obtain ⟨hj, hk⟩ := (message_iff hn e j ms).mp hm
    obtain ⟨x1, h1, k2⟩ := Option.bind_eq_some_iff.mp k1
    obtain ⟨x2, h2, k3⟩ := Option.bind_eq_some_iff.mp k2
    obtain ⟨x3, h3, k4⟩ := Option.bind_eq_some_iff.mp k3
    obtain ⟨x4, h4, k5⟩ := Option.bind_eq_some_iff.mp k4
    cases k5
    exact ⟨ms, hj, hk, ⟨⟨1, by decide⟩, (strOf_iff rfl ms _).mp h1⟩,
      ⟨⟨2, by decide⟩, (msgField_iff rfl (asAssignment_iff e) ms _).mp h2⟩,
      ⟨⟨3, by decide⟩, (listField_iff rfl (asTicket_iff e) ms _).mp h3⟩,
      ⟨⟨4, by decide⟩, (mapField_iff rfl (asAny_iff e) ms _).mp h4⟩⟩
  · rintro ⟨ms, hj, hk, ⟨-, h1⟩, ⟨-, h2⟩, ⟨-, h3⟩, ⟨-, h4⟩⟩
    refine Option.bind_eq_some_iff.mpr ⟨ms, (message_iff hn e j ms).mpr ⟨hj, hk⟩, ?_⟩
    refine Option.bind_eq_some_iff.mpr ⟨_, (strOf_iff rfl ms _).mpr h1, ?_⟩
    refine Option.bind_eq_some_iff.mpr ⟨_, (msgField_iff rfl (asAssignment_iff e) ms _).mpr h2, ?_⟩
    refine Option.bind_eq_some_iff.mpr ⟨_, (listField_iff rfl (asTicket_iff e) ms _).mpr h3, ?_⟩
    refine Option.bind_eq_some_iff.mpr ⟨_, (mapField_iff rfl (asAny_iff e) ms _).mpr h4, ?_⟩
    rfl

theorem asTagFilter_iff (e : Env) (v : TagPresentFilter) (j : Json) : asTagFilter e j = some v ↔ TagFilterJ e v j := by
  have hn : NamesOf "TagPresentFilter" [("tag", "tag")] := by decide +kernel
  constructor
  · intro k0
    obtain ⟨ms, hm, k1⟩ := Option.bind_eq_some_iff.mp k0
    obtain ⟨hj, hk⟩ := (message_iff hn e j ms).mp hm
    obtain ⟨x1, h1, k2⟩ := Option.bind_eq_some_iff.mp k1
    cases k2
    exact ⟨ms, hj, hk, ⟨⟨1, by decide⟩, (strOf_iff rfl ms _).mp h1⟩⟩
  · rintro ⟨ms, hj, hk, ⟨-, h1⟩⟩
    refine Option.bind_eq_some_iff.mpr ⟨ms, (message_iff hn e j ms).mpr ⟨hj, hk⟩, ?_⟩
    refine Option.bind_eq_some_iff.mpr ⟨_, (strOf_iff rfl ms _).mpr h1, ?_⟩
    rfl

theorem asStrFilter_iff (e : Env) (v : StringEqualsFilter) (j : Json) : asStrFilter e j = some v ↔ StrFilterJ e v j := by
  have hn : NamesOf "StringEqualsFilter" [("stringArg", "string_arg"), ("value", "value")] := by decide +kernel
  constructor
  · intro k0
    obtain ⟨ms, hm, k1⟩ := Option.bind_eq_some_iff.mp k0
    obtain ⟨hj, hk⟩ := (message_iff hn e j ms).mp hm
    obtain ⟨x1, h1, k2⟩ := Option.bind_eq_some_iff.mp k1
    obtain ⟨x2, h2, k3⟩ := Option.bind_eq_some_iff.mp k2
    cases k3
    exact ⟨ms, hj, hk, ⟨⟨1, by decide⟩, (strOf_iff rfl ms _).mp h1⟩,
      ⟨⟨2, by decide⟩, (strOf_iff rfl ms _).mp h2⟩⟩
  · rintro ⟨ms, hj, hk, ⟨-, h1⟩, ⟨-, h2⟩⟩
    refine Option.bind_eq_some_iff.mpr ⟨ms, (message_iff hn e j ms).mpr ⟨hj, hk⟩, ?_⟩
    refine Option.bind_eq_some_iff.mpr ⟨_, (strOf_iff rfl ms _).mpr h1, ?_⟩
    refine Option.bind_eq_some_iff.mpr ⟨_, (strOf_iff rfl ms _).mpr h2, ?_⟩
    rfl

theorem asDblFilter_iff (e : Env) (v : DoubleRangeFilter) (j : Json) : asDblFilter e j = some v ↔ DblFilterJ e v j := by
  have hn : NamesOf "DoubleRangeFilter" [("doubleArg", "double_arg"), ("minimum", "minimum"), ("maximum", "maximum"), ("bounds", "bounds")] := by decide +kernel
  constructor
  · intro k0
    obtain ⟨ms, hm, k1⟩ := Option.bind_eq_some_iff.mp k0
    obtain ⟨hj, hk⟩ := (message_iff hn e j ms).mp hm
    obtain ⟨x1, h1, k2⟩ := Option.bind_eq_some_iff.mp k1
    obtain ⟨x2, h2, k3⟩ := Option.bind_eq_some_iff.mp k2
    obtain ⟨x3, h3, k4⟩ := Option.bind_eq_some_iff.mp k3
    obtain ⟨x4, h4, k5⟩ := Option.bind_eq_some_iff.mp k4
    cases k5
    exact ⟨ms, hj, hk, ⟨⟨1, by decide⟩, (strOf_iff rfl ms _).mp h1⟩,
      ⟨⟨2, by decide⟩, (doubleField_iff rfl e.fl ms _).mp h2⟩,
      ⟨⟨3, by decide⟩, (doubleField_iff rfl e.fl ms _).mp h3⟩,
      ⟨⟨4, by decide⟩, (enumField_iff rfl e bounds_names bounds_nodup ms _).mp h4⟩⟩
  · rintro ⟨ms, hj, hk, ⟨-, h1⟩, ⟨-, h2⟩, ⟨-, h3⟩, ⟨-, h4⟩⟩
    refine Option.bind_eq_some_iff.mpr ⟨ms, (message_iff hn e j ms).mpr ⟨hj, hk⟩, ?_⟩
    refine Option.bind_eq_some_iff.mpr ⟨_, (strOf_iff rfl ms _).mpr h1, ?_⟩
    refine Option.bind_eq_some_iff.mpr ⟨_, (doubleField_iff rfl e.fl ms _).mpr h2, ?_⟩
    refine Option.bind_eq_some_iff.mpr ⟨_, (doubleField_iff rfl e.fl ms _).mpr h3, ?_⟩
    refine Option.bind_eq_some_iff.mpr ⟨_, (enumField_iff rfl e bounds_names bounds_nodup ms _).mpr h4, ?_⟩
    rfl

theorem asCtFilter_iff (e : Env) (v : CreationTimeRangeFilter) (j : Json) : asCtFilter e j = some v ↔ CtFilterJ e v j := by
  have hn : NamesOf "CreationTimeRangeFilter" [("start", "start"), ("end", "end"), ("bounds", "bounds")] := by decide +kernel
  constructor
  · intro k0
    obtain ⟨ms, hm, k1⟩ := Option.bind_eq_some_iff.mp k0
    obtain ⟨hj, hk⟩ := (message_iff hn e j ms).mp hm
    obtain ⟨x1, h1, k2⟩ := Option.bind_eq_some_iff.mp k1
    obtain ⟨x2, h2, k3⟩ := Option.bind_eq_some_iff.mp k2
    obtain ⟨x3, h3, k4⟩ := Option.bind_eq_some_iff.mp k3
    cases k4
    exact ⟨ms, hj, hk, ⟨⟨6, by decide⟩, (msgField_iff rfl asTime_iff ms _).mp h1⟩,
      ⟨⟨7, by decide⟩, (msgField_iff rfl asTime_iff ms _).mp h2⟩,
      ⟨⟨4, by decide⟩, (enumField_iff rfl e bounds_names bounds_nodup ms _).mp h3⟩⟩
  · rintro ⟨ms, hj, hk, ⟨-, h1⟩, ⟨-, h2⟩, ⟨-, h3⟩⟩
    refine Option.bind_eq_some_iff.mpr ⟨ms, (message_iff hn e j ms).mpr ⟨hj, hk⟩, ?_⟩
    refine Option.bind_eq_some_iff.mpr ⟨_, (msgField_iff rfl asTime_iff ms _).mpr h1, ?_⟩
    refine Option.bind_eq_some_iff.mpr ⟨_, (msgField_iff rfl asTime_iff ms _).mpr h2, ?_⟩
    refine Option.bind_eq_some_iff.mpr ⟨_, (enumField_iff rfl e bounds_names bounds_nodup ms _).mpr h3, ?_⟩
    rfl

theorem asPool_iff (e : Env) (v : Pool) (j : Json) : asPool e j = some v ↔ PoolJ e v j := by
  have hn : NamesOf "Pool" [("name", "name"), ("tagPresentFilters", "tag_present_filters"), ("stringEqualsFilters", "string_equals_filters"), ("doubleRangeFilters", "double_range_filters"), ("creationTimeRangeFilter", "creation_time_range_filter"), ("participants", "participants"), ("extensions", "extensions")] := by decide +kernel
  constructor
  · intro k0
    obtain ⟨ms, hm, k1⟩ := Option.bind_eq_some_iff.mp k0
    obtain ⟨hj, hk⟩ := (message_iff hn e j ms).mp hm
    obtain ⟨x1, h1, k2⟩ := Option.bind_eq_some_iff.mp k1
    obtain ⟨x2, h2, k3⟩ := Option.bind_eq_some_iff.mp k2
    obtain ⟨x3, h3, k4⟩ := Option.bind_eq_some_iff.mp k3
    obtain ⟨x4, h4, k5⟩ := Option.bind_eq_some_iff.mp k4
    obtain ⟨x5, h5, k6⟩ := Option.bind_eq_some_iff.mp k5
    obtain ⟨x6, h6, k7⟩ := Option.bind_eq_some_iff.mp k6
    obtain ⟨x7, h7, k8⟩ := Option.bind_eq_some_iff.mp k7
    cases k8
    exact ⟨ms, hj, hk, ⟨⟨1, by decide⟩, (strOf_iff rfl ms _).mp h1⟩,
      ⟨⟨2, by decide⟩, (listField_iff rfl (asTagFilter_iff e) ms _).mp h2⟩,
      ⟨⟨3, by decide⟩, (listField_iff rfl (asStrFilter_iff e) ms _).mp h3⟩,
      ⟨⟨4, by decide⟩, (listField_iff rfl (asDblFilter_iff e) ms _).mp h4⟩,
      ⟨⟨5, by decide⟩, (msgField_iff rfl (asCtFilter_iff e) ms _).mp h5⟩,
      ⟨⟨6, by decide⟩, (msgField_iff rfl (asRoster_iff e) ms _).mp h6⟩,
      ⟨⟨7, by decide⟩, (mapField_iff rfl (asAny_iff e) ms _).mp h7⟩⟩
  · rintro ⟨ms, hj, hk, ⟨-, h1⟩, ⟨-, h2⟩, ⟨-, h3⟩, ⟨-, h4⟩, ⟨-, h5⟩, ⟨-, h6⟩, ⟨-, h7⟩⟩
    refine Option.bind_eq_some_iff.mpr ⟨ms, (message_iff hn e j ms).mpr ⟨hj, hk⟩, ?_⟩
    refine Option.bind_eq_some_iff.mpr ⟨_, (strOf_iff rfl ms _).mpr h1, ?_⟩
    refine Option.bind_eq_some_iff.mpr ⟨_, (listField_iff rfl (asTagFilter_iff e) ms _).mpr h2, ?_⟩
    refine Option.bind_eq_some_iff.mpr ⟨_, (listField_iff rfl (asStrFilter_iff e) ms _).mpr h3, ?_⟩
    refine Option.bind_eq_some_iff.mpr ⟨_, (listField_iff rfl (asDblFilter_iff e) ms _).mpr h4, ?_⟩
    refine Option.bind_eq_some_iff.mpr ⟨_, (msgField_iff rfl (asCtFilter_iff e) ms _).mpr h5, ?_⟩
    refine Option.bind_eq_some_iff.mpr ⟨_, (msgField_iff rfl (asRoster_iff e) ms _).mpr h6, ?_⟩
    refine Option.bind_eq_some_iff.mpr ⟨_, (mapField_iff rfl (asAny_iff e) ms _).mpr h7, ?_⟩
    rfl

theorem asProfile_iff (e : Env) (v : Profile) (j : Json) : asProfile e j = some v ↔ ProfileJ e v j := by
  have hn : NamesOf "Profile" [("name", "name"), ("pools", "pools"), ("extensions", "extensions")] := by decide +kernel
  constructor
  · intro k0
    obtain ⟨ms, hm, k1⟩ := Option.bind_eq_some_iff.mp k0
    obtain ⟨hj, hk⟩ := (message_iff hn e j ms).mp hm
    obtain ⟨x1, h1, k2⟩ := Option.bind_eq_some_iff.mp k1
    obtain ⟨x2, h2, k3⟩ := Option.bind_eq_some_iff.mp k2
    obtain ⟨x3, h3, k4⟩ := Option.bind_eq_some_iff.mp k3
    cases k4
    exact ⟨ms, hj, hk, ⟨⟨1, by decide⟩, (strOf_iff rfl ms _).mp h1⟩,
      ⟨⟨2, by decide⟩, (mapField_iff rfl (asPool_iff e) ms _).mp h2⟩,
      ⟨⟨3, by decide⟩, (mapField_iff rfl (asAny_iff e) ms _).mp h3⟩⟩
  · rintro ⟨ms, hj, hk, ⟨-, h1⟩, ⟨-, h2⟩, ⟨-, h3⟩⟩
    refine Option.bind_eq_some_iff.mpr ⟨ms, (message_iff hn e j ms).mpr ⟨hj, hk⟩, ?_⟩
    refine Option.bind_eq_some_iff.mpr ⟨_, (strOf_iff rfl ms _).mpr h1, ?_⟩
    refine Option.bind_eq_some_iff.mpr ⟨_, (mapField_iff rfl (asPool_iff e) ms _).mpr h2, ?_⟩
    refine Option.bind_eq_some_iff.mpr ⟨_, (mapField_iff rfl (asAny_iff e) ms _).mpr h3, ?_⟩
    rfl

theorem asMatch_iff (e : Env) (v : Match) (j : Json) : asMatch e j = some v ↔ MatchJ e v j := by
  have hn : NamesOf "Match" [("id", "id"), ("rosters", "rosters"), ("extensions", "extensions")] := by decide +kernel
  constructor
  · intro k0
    obtain ⟨ms, hm, k1⟩ := Option.bind_eq_some_iff.mp k0
    obtain ⟨hj, hk⟩ := (message_iff hn e j ms).mp hm
    obtain ⟨x1, h1, k2⟩ := Option.bind_eq_some_iff.mp k1
    obtain ⟨x2, h2, k3⟩ := Option.bind_eq_some_iff.mp k2
    obtain ⟨x3, h3, k4⟩ := Option.bind_eq_some_iff.mp k3
    cases k4
    exact ⟨ms, hj, hk, ⟨⟨1, by decide⟩, (strOf_iff rfl ms _).mp h1⟩,
      ⟨⟨2, by decide⟩, (mapField_iff rfl (asRoster_iff e) ms _).mp h2⟩,
      ⟨⟨3, by decide⟩, (mapField_iff rfl (asAny_iff e) ms _).mp h3⟩⟩
  · rintro ⟨ms, hj, hk, ⟨-, h1⟩, ⟨-, h2⟩, ⟨-, h3⟩⟩
    refine Option.bind_eq_some_iff.mpr ⟨ms, (message_iff hn e j ms).mpr ⟨hj, hk⟩, ?_⟩
    refine Option.bind_eq_some_iff.mpr ⟨_, (strOf_iff rfl ms _).mpr h1, ?_⟩
    refine Option.bind_eq_some_iff.mpr ⟨_, (mapField_iff rfl (asRoster_iff e) ms _).mpr h2, ?_⟩
    refine Option.bind_eq_some_iff.mpr ⟨_, (mapField_iff rfl (asAny_iff e) ms _).mpr h3, ?_⟩
    rfl

theorem asSpec_iff (e : Env) (v : Serve.MmfSpec) (j : Json) : asSpec e j = some v ↔ SpecJ e v j := by
  have hn : NamesOf "MatchmakingFunctionSpec" [("name", "name"), ("host", "host"), ("port", "port"), ("type", "type")] := by decide +kernel
  constructor
  · intro k0
    obtain ⟨ms, hm, k1⟩ := Option.bind_eq_some_iff.mp k0
    obtain ⟨hj, hk⟩ := (message_iff hn e j ms).mp hm
    obtain ⟨x1, h1, k2⟩ := Option.bind_eq_some_iff.mp k1
    obtain ⟨x2, h2, k3⟩ := Option.bind_eq_some_iff.mp k2
    obtain ⟨x3, h3, k4⟩ := Option.bind_eq_some_iff.mp k3
    obtain ⟨x4, h4, k5⟩ := Option.bind_eq_some_iff.mp k4
    cases k5
    exact ⟨ms, hj, hk, ⟨⟨1, by decide⟩, (strOf_iff rfl ms _).mp h1⟩,
      ⟨⟨2, by decide⟩, (strOf_iff rfl ms _).mp h2⟩,
      ⟨⟨3, by decide⟩, (intField_iff rfl ms _).mp h3⟩,
      ⟨⟨4, by decide⟩, (enumField_iff rfl e types_names types_nodup ms _).mp h4⟩⟩
  · rintro ⟨ms, hj, hk, ⟨-, h1⟩, ⟨-, h2⟩, ⟨-, h3⟩, ⟨-, h4⟩⟩
    refine Option.bind_eq_some_iff.mpr ⟨ms, (message_iff hn e j ms).mpr ⟨hj, hk⟩, ?_⟩
    refine Option.bind_eq_some_iff.mpr ⟨_, (strOf_iff rfl ms _).mpr h1, ?_⟩
    refine Option.bind_eq_some_iff.mpr ⟨_, (strOf_iff rfl ms _).mpr h2, ?_⟩
    refine Option.bind_eq_some_iff.mpr ⟨_, (intField_iff rfl ms _).mpr h3, ?_⟩
    refine Option.bind_eq_some_iff.mpr ⟨_, (enumField_iff rfl e types_names types_nodup ms _).mpr h4, ?_⟩
    rfl

theorem asCreateTicket_iff (e : Env) (v : Option Ticket) (j : Json) : asCreateTicket e j = some v ↔ CreateTicketRequestJ e v j := by
  have hn : NamesOf "CreateTicketRequest" [("ticket", "ticket")] := by decide +kernel
  constructor
  · intro k0
    obtain ⟨ms, hm, k1⟩ := Option.bind_eq_some_iff.mp k0
    obtain ⟨hj, hk⟩ := (message_iff hn e j ms).mp hm
    exact ⟨ms, hj, hk, ⟨⟨1, by decide⟩, (msgField_iff rfl (asTicket_iff e) ms _).mp k1⟩⟩
  · rintro ⟨ms, hj, hk, ⟨-, h1⟩⟩
    refine Option.bind_eq_some_iff.mpr ⟨ms, (message_iff hn e j ms).mpr ⟨hj, hk⟩, ?_⟩
    exact (msgField_iff rfl (asTicket_iff e) ms _).mpr h1

theorem asCreated_iff (e : Env) (v : Str) (j : Json) : asCreated e j = some v ↔ CreateTicketResponseJ e v j := by
  have hn : NamesOf "CreateTicketResponse" [("ticketId", "ticket_id")] := by decide +kernel
  constructor
  · intro k0
    obtain ⟨ms, hm, k1⟩ := Option.bind_eq_some_iff.mp k0
    obtain ⟨hj, hk⟩ := (message_iff hn e j ms).mp hm
    exact ⟨ms, hj, hk, ⟨⟨1, by decide⟩, (strOf_iff rfl ms _).mp k1⟩⟩
  · rintro ⟨ms, hj, hk, ⟨-, h1⟩⟩
    refine Option.bind_eq_some_iff.mpr ⟨ms, (message_iff hn e j ms).mpr ⟨hj, hk⟩, ?_⟩
    exact (strOf_iff rfl ms _).mpr h1

theorem asIds_activate_iff (e : Env) (v : List Str) (j : Json) : asIds e j = some v ↔ IdsRequestJ e "ActivateTicketsRequest" v j := by
  have hn : NamesOf "ActivateTicketsRequest" [("ticketIds", "ticket_ids")] := by decide +kernel
  constructor
  · intro k0
    obtain ⟨ms, hm, k1⟩ := Option.bind_eq_some_iff.mp k0
    obtain ⟨hj, hk⟩ := (message_iff hn e j ms).mp hm
    exact ⟨ms, hj, hk, ⟨⟨1, by decide⟩, (listField_iff rfl asStr_iff ms _).mp k1⟩⟩
  · rintro ⟨ms, hj, hk, ⟨-, h1⟩⟩
    refine Option.bind_eq_some_iff.mpr ⟨ms, (message_iff hn e j ms).mpr ⟨hj, hk⟩, ?_⟩
    exact (listField_iff rfl asStr_iff ms _).mpr h1

theorem asIds_deactivate_iff (e : Env) (v : List Str) (j : Json) : asIds e j = some v ↔ IdsRequestJ e "DeactivateTicketsRequest" v j := by
  have hn : NamesOf "DeactivateTicketsRequest" [("ticketIds", "ticket_ids")] := by decide +kernel
  constructor
  · intro k0
    obtain ⟨ms, hm, k1⟩ := Option.bind_eq_some_iff.mp k0
    obtain ⟨hj, hk⟩ := (message_iff hn e j ms).mp hm
    exact ⟨ms, hj, hk, ⟨⟨1, by decide⟩, (listField_iff rfl asStr_iff ms _).mp k1⟩⟩
  · rintro ⟨ms, hj, hk, ⟨-, h1⟩⟩
    refine Option.bind_eq_some_iff.mpr ⟨ms, (message_iff hn e j ms).mpr ⟨hj, hk⟩, ?_⟩
    exact (listField_iff rfl asStr_iff ms _).mpr h1

theorem asIds_watch_iff (e : Env) (v : List Str) (j : Json) : asIds e j = some v ↔ IdsRequestJ e "WatchAssignmentsRequest" v j := by
  have hn : NamesOf "WatchAssignmentsRequest" [("ticketIds", "ticket_ids")] := by decide +kernel
  constructor
  · intro k0
    obtain ⟨ms, hm, k1⟩ := Option.bind_eq_some_iff.mp k0
    obtain ⟨hj, hk⟩ := (message_iff hn e j ms).mp hm
    exact ⟨ms, hj, hk, ⟨⟨1, by decide⟩, (listField_iff rfl asStr_iff ms _).mp k1⟩⟩
  · rintro ⟨ms, hj, hk, ⟨-, h1⟩⟩
    refine Option.bind_eq_some_iff.mpr ⟨ms, (message_iff hn e j ms).mpr ⟨hj, hk⟩, ?_⟩
    exact (listField_iff rfl asStr_iff ms _).mpr h1

theorem asMmfRequest_iff (e : Env) (v : Option Profile × List Serve.MmfSpec) (j : Json) : asMmfRequest e j = some v ↔ MmfRequestJ e v j := by
  have hn : NamesOf "MmfRequest" [("profile", "profile"), ("mmfs", "mmfs")] := by decide +kernel
  constructor
  · intro k0
    obtain ⟨ms, hm, k1⟩ := Option.bind_eq_some_iff.mp k0
    obtain ⟨hj, hk⟩ := (message_iff hn e j ms).mp hm
    obtain ⟨x1, h1, k2⟩ := Option.bind_eq_some_iff.mp k1
    obtain ⟨x2, h2, k3⟩ := Option.bind_eq_some_iff.mp k2
    cases k3
    exact ⟨ms, hj, hk, ⟨⟨1, by decide⟩, (msgField_iff rfl (asProfile_iff e) ms _).mp h1⟩,
      ⟨⟨2, by decide⟩, (listField_iff rfl (asSpec_iff e) ms _).mp h2⟩⟩
  · rintro ⟨ms, hj, hk, ⟨-, h1⟩, ⟨-, h2⟩⟩
    refine Option.bind_eq_some_iff.mpr ⟨ms, (message_iff hn e j ms).mpr ⟨hj, hk⟩, ?_⟩
    refine Option.bind_eq_some_iff.mpr ⟨_, (msgField_iff rfl (asProfile_iff e) ms _).mpr h1, ?_⟩
    refine Option.bind_eq_some_iff.mpr ⟨_, (listField_iff rfl (asSpec_iff e) ms _).mpr h2, ?_⟩
    rfl

theorem asMmfResponse_iff (e : Env) (v : Option Match) (j : Json) : asMmfResponse e j = some v ↔ MmfResponseJ e v j := by
  have hn : NamesOf "StreamedMmfResponse" [("match", "match")] := by decide +kernel
  constructor
  · intro k0
    obtain ⟨ms, hm, k1⟩ := Option.bind_eq_some_iff.mp k0
    obtain ⟨hj, hk⟩ := (message_iff hn e j ms).mp hm
    exact ⟨ms, hj, hk, ⟨⟨1, by decide⟩, (msgField_iff rfl (asMatch_iff e) ms _).mp k1⟩⟩
  · rintro ⟨ms, hj, hk, ⟨-, h1⟩⟩
    refine Option.bind_eq_some_iff.mpr ⟨ms, (message_iff hn e j ms).mpr ⟨hj, hk⟩, ?_⟩
    exact (msgField_iff rfl (asMatch_iff e) ms _).mpr h1

theorem asCreateAssignments_iff (e : Env) (v : Option Roster) (j : Json) : asCreateAssignments e j = some v ↔ CreateAssignmentsRequestJ e v j := by
  have hn : NamesOf "CreateAssignmentsRequest" [("assignmentRoster", "assignment_roster")] := by decide +kernel
  constructor
  · intro k0
    obtain ⟨ms, hm, k1⟩ := Option.bind_eq_some_iff.mp k0
    obtain ⟨hj, hk⟩ := (message_iff hn e j ms).mp hm
    exact ⟨ms, hj, hk, ⟨⟨1, by decide⟩, (msgField_iff rfl (asRoster_iff e) ms _).mp k1⟩⟩
  · rintro ⟨ms, hj, hk, ⟨-, h1⟩⟩
    refine Option.bind_eq_some_iff.mpr ⟨ms, (message_iff hn e j ms).mpr ⟨hj, hk⟩, ?_⟩
    exact (msgField_iff rfl (asRoster_iff e) ms _).mpr h1

theorem asWatchResponse_iff (e : Env) (v : Option Assignment × Str) (j : Json) : asWatchResponse e j = some v ↔ WatchResponseJ e v j := by
  have hn : NamesOf "StreamedWatchAssignmentsResponse" [("assignment", "assignment"), ("id", "id")] := by decide +kernel
  constructor
  · intro k0
    obtain ⟨ms, hm, k1⟩ := Option.bind_eq_some_iff.mp k0
    obtain ⟨hj, hk⟩ := (message_iff hn e j ms).mp hm
    obtain ⟨x1, h1, k2⟩ := Option.bind_eq_some_iff.mp k1
    obtain ⟨x2, h2, k3⟩ := Option.bind_eq_some_iff.mp k2
    cases k3
    exact ⟨ms, hj, hk, ⟨⟨1, by decide⟩, (msgField_iff rfl (asAssignment_iff e) ms _).mp h1⟩,
      ⟨⟨2, by decide⟩, (strOf_iff rfl ms _).mp h2⟩⟩
  · rintro ⟨ms, hj, hk, ⟨-, h1⟩, ⟨-, h2⟩⟩
    refine Option.bind_eq_some_iff.mpr ⟨ms, (message_iff hn e j ms).mpr ⟨hj, hk⟩, ?_⟩
    refine Option.bind_eq_some_iff.mpr ⟨_, (msgField_iff rfl (asAssignment_iff e) ms _).mpr h1, ?_⟩
    refine Option.bind_eq_some_iff.mpr ⟨_, (strOf_iff rfl ms _).mpr h2, ?_⟩
    rfl

end OM.PJ
