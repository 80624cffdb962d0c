import Verif.Lemmas.Relay
/-! # Lemmas: the relay terminates, and what it counts -/
namespace OM.Relay

/-- Steps a match costs once received. -/
def matchCost (m : Option Match) : Nat := 2 * (collectIds (rostersOf m)).length + 6

/-- Steps an MMF goroutine still has. -/
def mmfLeft (x : Mmf × MmfSt) : Nat :=
  match x.2.phase with
  | .recv => ((x.1.results.drop x.2.next).map fun m => matchCost m + 1).sum + 2
  | .wait => 1
  | .done => 0

/-- Steps a match goroutine still has. -/
def goLeft (g : Goro) : Nat :=
  match g.pc with
  | .submit k => (g.ids.length - k) + g.ids.length + 6
  | .await k => (g.ids.length - k) + 5
  | .checkBefore => 4
  | .send => 3
  | .checkAfter => 1
  | .done => 0

def fanLeft : Fan → Nat
  | .idle => 1
  | .busy _ _ => 2
  | .closed => 0

def mainLeft : Main → Nat
  | .waiting => 2
  | .closing => 1
  | .returned => 0

def left (fs : List Mmf) (s : St) : Nat :=
  ((fs.zip s.mmfs).map mmfLeft).sum + (s.gos.map goLeft).sum + fanLeft s.fan + mainLeft s.main +
    (if s.crashed then 0 else 1)

theorem sum_set {l : List Nat} {i a b : Nat} (h : l[i]? = some a) : (l.set i b).sum + a = l.sum + b := by
  induction l generalizing i with
  | nil => simp at h
  | cons x l ih =>
    cases i with
    | zero => simp at h; subst h; simp; omega
    | succ i => simp at h; have := ih h; simp; omega

theorem zip_set {fs : List Mmf} {mmfs : List MmfSt} {i : Nat} {f : Mmf} (x : MmfSt) (hf : fs[i]? = some f) :
    fs.zip (mmfs.set i x) = (fs.zip mmfs).set i (f, x) := by
  induction fs generalizing mmfs i with
  | nil => simp at hf
  | cons g fs ih =>
    cases mmfs with
    | nil => simp
    | cons m mmfs =>
      cases i with
      | zero => simp at hf; subst hf; simp
      | succ i => simp at hf; simp [ih hf]

theorem mmfSum_set (F : Mmf × MmfSt → Nat) {fs : List Mmf} {mmfs : List MmfSt} {i : Nat} {f : Mmf} {ms x : MmfSt}
    (hf : fs[i]? = some f) (hm : mmfs[i]? = some ms) :
    ((fs.zip (mmfs.set i x)).map F).sum + F (f, ms) = ((fs.zip mmfs).map F).sum + F (f, x) := by
  rw [zip_set x hf, List.map_set]
  apply sum_set
  rw [List.getElem?_map, (List.getElem?_zip_eq_some (z := (f, ms))).2 ⟨hf, hm⟩]; rfl

theorem goSum_set {gos : List Goro} {j : Nat} {g g' : Goro} (hj : gos[j]? = some g) :
    ((gos.set j g').map goLeft).sum + goLeft g = (gos.map goLeft).sum + goLeft g' := by
  rw [List.map_set]
  apply sum_set
  rw [List.getElem?_map, hj]; rfl

theorem collectIds_length_perm {a b : GoMap Roster} (h : a.Perm b) : (collectIds a).length = (collectIds b).length := by
  exact (h.flatMap_right _).length_eq

theorem left_step {wait : Bool} {fs : List Mmf} {s s' : St} {l : Label} (h : Inv fs s)
    (hs : step wait fs s l = some s') : left fs s' < left fs s := by
  unfold step at hs
  split at hs
  · cases hs
  rename_i hcr
  cases l with
  | recv i ord =>
    simp only [recvStep] at hs
    split at hs
    · rename_i f ms hf hms
      split at hs
      · rename_i hph
        split at hs
        · rename_i m hm
          split at hs
          · rename_i hp
            cases hs
            have := mmfSum_set mmfLeft (x := ⟨ms.next + 1, .recv⟩) hf hms
            have hl := collectIds_length_perm hp
            have hd : f.results.drop ms.next = m :: f.results.drop (ms.next + 1) := by
              obtain ⟨h1, h2⟩ := List.getElem?_eq_some_iff.1 hm
              rw [List.drop_eq_getElem_cons h1, h2]
            simp only [mmfLeft, hph, hd, List.map_cons, List.sum_cons, matchCost] at this
            simp only [left, List.map_append, List.sum_append, List.map_cons, List.map_nil, List.sum_cons, List.sum_nil, goLeft]
            omega
          · cases hs
        · split at hs
          · cases hs
            have := mmfSum_set mmfLeft (x := ⟨ms.next, .wait⟩) hf hms
            have e1 : mmfLeft (f, ⟨ms.next, .wait⟩) = 1 := rfl
            have e2 : 2 ≤ mmfLeft (f, ms) := by simp [mmfLeft, hph]
            simp only [left]
            omega
          · cases hs
            have := mmfSum_set mmfLeft (x := ⟨ms.next, .done⟩) hf hms
            have e1 : mmfLeft (f, ⟨ms.next, .done⟩) = 0 := rfl
            have e2 : 2 ≤ mmfLeft (f, ms) := by simp [mmfLeft, hph]
            simp only [left]
            omega
      · cases hs
    · cases hs
  | tdDone i =>
    simp only at hs
    split at hs
    · rename_i ms hms
      split at hs
      · rename_i hc
        cases hs
        have hlt : i < fs.length := by rw [← h.len]; exact (List.getElem?_eq_some_iff.1 hms).1
        have := mmfSum_set mmfLeft (x := ⟨ms.next, .done⟩) (List.getElem?_eq_getElem hlt) hms
        have e1 : mmfLeft (fs[i], ⟨ms.next, .done⟩) = 0 := rfl
        have e2 : mmfLeft (fs[i], ms) = 1 := by simp [mmfLeft, hc.1]
        simp only [left]
        omega
      · cases hs
    · cases hs
  | go j seen =>
    simp only at hs
    split at hs
    · rename_i g hj
      split at hs
      · cases hs
      · cases hs; simp only [left, if_true]; simp only [Bool.not_eq_true] at hcr; rw [hcr]; simp
      · rename_i g' q hgo
        cases hs
        have := goSum_set (g' := g') hj
        have hlt : goLeft g' < goLeft g := by
          unfold goStep at hgo
          split at hgo
          · rename_i k hpc
            split at hgo
            · rename_i id hid
              have := (List.getElem?_eq_some_iff.1 hid).1
              cases hgo; simp only [goLeft, hpc]; omega
            · cases hgo; simp only [goLeft, hpc]; omega
          · rename_i k hpc
            split at hgo
            · cases hgo; simp only [goLeft, hpc]; omega
            · cases hgo; cases wait <;> simp [goLeft, hpc]
          · rename_i hpc
            split at hgo
            · cases hgo
            · cases hgo; simp [goLeft, hpc]
          · split at hgo <;> cases hgo
          · rename_i hpc
            split at hgo
            · cases hgo
            · cases hgo; simp [goLeft, hpc]
          · cases hgo
        simp only [left]
        omega
    · cases hs
  | hand j =>
    simp only at hs
    split at hs
    · rename_i g hj
      split at hs
      · rename_i hc
        cases hs
        have := goSum_set (g' := { g with pc := if wait then .done else .checkAfter }) hj
        have e1 : goLeft g = 3 := by simp [goLeft, hc.1]
        have e2 : goLeft { g with pc := if wait then .done else .checkAfter } ≤ 1 := by cases wait <;> simp [goLeft]
        simp only [left, hc.2, fanLeft]
        omega
      · cases hs
    · cases hs
  | fanEnd =>
    simp only at hs
    split at hs
    · rename_i j m hf
      cases hs; simp only [left, hf, fanLeft]; omega
    · cases hs
  | mainClose =>
    simp only at hs
    split at hs
    · rename_i hc
      cases hs; simp only [left, hc.1, mainLeft]; omega
    · cases hs
  | fanClose =>
    simp only at hs
    split at hs
    · rename_i hc
      cases hs; simp only [left, hc.2, fanLeft]; omega
    · cases hs
  | mainReturn =>
    simp only at hs
    split at hs
    · rename_i hc
      cases hs; simp only [left, hc, mainLeft]; omega
    · cases hs

theorem left_run {wait : Bool} {fs : List Mmf} {s s' : St} {ls : List Label} (h : Inv fs s)
    (hr : run wait fs s ls = some s') : ls.length + left fs s' ≤ left fs s := by
  induction ls generalizing s with
  | nil => cases hr; simp
  | cons l ls ih =>
    simp only [run, Option.bind_eq_some_iff] at hr
    obtain ⟨s1, h1, h2⟩ := hr
    have a := ih (inv_step h h1) h2
    have b := left_step h h1
    simp only [List.length_cons]; omega

theorem left_init (fs : List Mmf) :
    left fs (init fs) = ((fs.filter (·.starts)).map fun f => (f.results.map fun m => matchCost m + 1).sum + 2).sum + 4 := by
  have : ((fs.zip (init fs).mmfs).map mmfLeft).sum =
      ((fs.filter (·.starts)).map fun f => (f.results.map fun m => matchCost m + 1).sum + 2).sum := by
    simp only [init]
    induction fs with
    | nil => rfl
    | cons f fs ih =>
      simp only [List.map_cons, List.zip_cons_cons, List.sum_cons, List.filter_cons, ih]
      cases hs : f.starts <;> simp [mmfLeft]
  simp only [left, this]
  simp [init, fanLeft, mainLeft]

/-- Something can move until the call has returned. -/
theorem progress {wait : Bool} {fs : List Mmf} {s : St} (h : Inv fs s) (hc : s.crashed = false)
    (hm : s.main ≠ .returned) : ∃ l s', step wait fs s l = some s' := by
  cases hmain : s.main with
  | returned => exact absurd hmain hm
  | closing => exact ⟨.mainReturn, { s with main := .returned }, by simp [step, hc, hmain]⟩
  | waiting =>
    by_cases hall : ∀ ms ∈ s.mmfs, ms.phase = .done
    · exact ⟨.mainClose, { s with main := .closing }, by simp only [step, hc, hmain]; simp; exact hall⟩
    · push Not at hall
      obtain ⟨ms, hms, hph⟩ := hall
      obtain ⟨i, hi⟩ := List.mem_iff_getElem?.1 hms
      have hlt : i < fs.length := by rw [← h.len]; exact (List.getElem?_eq_some_iff.1 hi).1
      have hf : fs[i]? = some fs[i] := List.getElem?_eq_getElem hlt
      cases hp : ms.phase with
      | done => exact absurd hp hph
      | recv =>
        cases hr : (fs[i]).results[ms.next]? with
        | some m => exact ⟨.recv i (rostersOf m), _, by simp only [step, hc, recvStep, hf, hi, hp, hr]; simp; rfl⟩
        | none =>
          cases he : (fs[i]).eof with
          | true => exact ⟨.recv i [], _, by simp only [step, hc, recvStep, hf, hi, hp, hr, he]; simp; rfl⟩
          | false => exact ⟨.recv i [], _, by simp only [step, hc, recvStep, hf, hi, hp, hr, he]; simp; rfl⟩
      | wait =>
        by_cases hd : ∀ g ∈ s.gos, g.mmf = i → g.pc = .done
        · exact ⟨.tdDone i, { s with mmfs := s.mmfs.set i ⟨ms.next, .done⟩ }, by simp only [step, hc, hi]; simp [hp]; exact hd⟩
        · push Not at hd
          obtain ⟨g, hg, -, hpc⟩ := hd
          obtain ⟨j, hj⟩ := List.mem_iff_getElem?.1 hg
          have go : goStep wait s.fan true j g ≠ .blocked → ∃ l s', step wait fs s l = some s' := by
            intro hb
            refine ⟨.go j true, ?_⟩
            simp only [step, hc, hj]
            cases hgs : goStep wait s.fan true j g with
            | blocked => exact absurd hgs hb
            | crash => exact ⟨_, by simp; rfl⟩
            | step g' q => exact ⟨_, by simp; rfl⟩
          cases hpc' : g.pc with
          | done => exact absurd hpc' hpc
          | submit k => apply go; unfold goStep; simp only [hpc']; split <;> simp
          | await k => apply go; unfold goStep; simp only [hpc']; split <;> simp
          | checkBefore => apply go; unfold goStep; simp only [hpc']; split <;> simp
          | checkAfter => apply go; unfold goStep; simp only [hpc']; split <;> simp
          | send =>
            cases hfan : s.fan with
            | closed => exact absurd hmain (h.fan hfan)
            | busy j' m' => exact ⟨.fanEnd, _, by simp only [step, hc, hfan]; simp; rfl⟩
            | idle => exact ⟨.hand j, { s with gos := s.gos.set j { g with pc := if wait then .done else .checkAfter }, fan := .busy j g.m },
                by simp only [step, hc, hj]; simp [hpc', hfan]⟩

/-! ## The counter -/

def counted (x : Mmf × MmfSt) : Nat :=
  if x.1.starts && x.1.eof && decide (x.2.phase ≠ .recv) then x.1.results.length + 1 else 0

theorem counter_step {wait : Bool} {fs : List Mmf} {s s' : St} {l : Label} (h : Inv fs s)
    (hp : s.counter = ((fs.zip s.mmfs).map counted).sum) (hs : step wait fs s l = some s') :
    s'.counter = ((fs.zip s'.mmfs).map counted).sum := by
  unfold step at hs
  split at hs
  · cases hs
  cases l with
  | recv i ord =>
    simp only [recvStep] at hs
    split at hs
    · rename_i f ms hf hms
      split at hs
      · rename_i hph
        have hst : f.starts = true := by
          cases hb : f.starts with
          | true => rfl
          | false => have := (h.phases i ms f hms hf).2.1 hb; rw [this] at hph; cases hph
        have e0 : counted (f, ms) = 0 := by simp [counted, hph]
        split at hs
        · split at hs
          · cases hs
            have := mmfSum_set counted (x := ⟨ms.next + 1, .recv⟩) hf hms
            have e1 : counted (f, ⟨ms.next + 1, .recv⟩) = 0 := by simp [counted]
            simp only; omega
          · cases hs
        · rename_i hn
          split at hs
          · rename_i he
            cases hs
            have := mmfSum_set counted (x := ⟨ms.next, .wait⟩) hf hms
            have e1 : counted (f, ⟨ms.next, .wait⟩) = f.results.length + 1 := by simp [counted, hst, he]
            have e2 := (h.phases i ms f hms hf).1
            have e3 := List.getElem?_eq_none_iff.1 hn
            simp only; omega
          · rename_i he
            cases hs
            have := mmfSum_set counted (x := ⟨ms.next, .done⟩) hf hms
            have e1 : counted (f, ⟨ms.next, .done⟩) = 0 := by simp [counted, he]
            simp only; omega
      · cases hs
    · cases hs
  | tdDone i =>
    simp only at hs
    split at hs
    · rename_i ms hms
      split at hs
      · rename_i hc
        cases hs
        have hlt : i < fs.length := by rw [← h.len]; exact (List.getElem?_eq_some_iff.1 hms).1
        have := mmfSum_set counted (x := ⟨ms.next, .done⟩) (List.getElem?_eq_getElem hlt) hms
        have e1 : counted (fs[i], ⟨ms.next, .done⟩) = counted (fs[i], ms) := by simp [counted, hc.1]
        simp only; omega
      · cases hs
    · cases hs
  | go j seen =>
    simp only at hs
    split at hs
    · split at hs
      · cases hs
      · cases hs; exact hp
      · cases hs; exact hp
    · cases hs
  | hand j =>
    simp only at hs
    split at hs
    · split at hs
      · cases hs; exact hp
      · cases hs
    · cases hs
  | fanEnd =>
    simp only at hs
    split at hs
    · cases hs; exact hp
    · cases hs
  | mainClose =>
    simp only at hs
    split at hs
    · cases hs; exact hp
    · cases hs
  | fanClose =>
    simp only at hs
    split at hs
    · cases hs; exact hp
    · cases hs
  | mainReturn =>
    simp only at hs
    split at hs
    · cases hs; exact hp
    · cases hs

theorem counter_init (fs : List Mmf) : (init fs).counter = ((fs.zip (init fs).mmfs).map counted).sum := by
  simp only [init]
  induction fs with
  | nil => rfl
  | cons f fs ih =>
    simp only [List.map_cons, List.zip_cons_cons, List.sum_cons, ← ih]
    cases hs : f.starts <;> simp [counted, hs]

end OM.Relay
