import Verif.Spec.Activity
import Verif.Props.Config

/-! Properties of activities. -/

namespace Distbench.Activity
open Distbench.Tables Distbench.Services Distbench.Spec

/-! ### C172: accepted activities can be run -/

/-- The full property: an accepted activity can be created, and run any number of times, whatever
is drawn. -/
def AlwaysRuns : Prop :=
  ∀ (ac : ActivityConfig) (p : ParsedActivity) (runs : List (List Nat)), parseActivityConfig ac = .ok p →
    (∀ d ∈ runs, LegalDraws p d) → ∃ a, (allocateActivity p).bind (fun a => runTimes a runs) = .ok a

/-- An activity over 2^32 elements. -/
def hugeArray : ActivityConfig where
  settings := [{ name := some "activity_func".toList, stringValue := some "PolluteDataCache".toList },
    { name := some "array_size".toList, int64Value := some 4294967296 }]

/-- What it is parsed to. -/
def hugeParsed : ParsedActivity where
  name := []
  func := "PolluteDataCache".toList
  arraySize := 0
  arrayReadsPerIteration := 1000

/-- An activity over 2^32 elements is accepted, and creating it is undefined. -/
theorem C172_negation : ¬ AlwaysRuns := by
  intro h
  obtain ⟨a, ha⟩ := h hugeArray hugeParsed [] (by decide) (fun d hd => by cases hd)
  have : (allocateActivity hugeParsed).bind (fun a => runTimes a []) = .ub := by decide
  rw [this] at ha
  cases ha

theorem run_cpu (runs : List (List Nat)) : ∀ n : Nat, n < 2 ^ 31 →
    runTimes (.consumeCpu n) runs =
      if n + runs.length < 2 ^ 31 then .ok (.consumeCpu ((n + runs.length : Nat) : Int)) else .ub := by
  induction runs with
  | nil => intro n hn; simp [runTimes, hn]
  | cons d rest ih =>
    intro n hn
    simp only [runTimes, doActivity, nextCount]
    by_cases h : n + 1 < 2 ^ 31
    · rw [if_pos (by unfold InI32; omega)]
      simp only [Outcome.bind]
      have := ih (n + 1) h
      rw [show ((n : Int) + 1) = ((n + 1 : Nat) : Int) by omega, this, List.length_cons]
      rw [show n + 1 + rest.length = n + (rest.length + 1) by omega]
    · rw [if_neg (by unfold InI32; omega), if_neg (by rw [List.length_cons]; omega)]
      rfl

/-- Also with an array of one element: the 2147483648th run is undefined. -/
theorem C172_many_runs (p : ParsedActivity) (hp : p.func = "ConsumeCpu".toList) (hs : 1 ≤ p.arraySize)
    (runs : List (List Nat)) (hr : 2 ^ 31 ≤ runs.length) :
    (allocateActivity p).bind (fun a => runTimes a runs) = .ub := by
  have : allocateActivity p = .ok (.consumeCpu 0) := by
    unfold allocateActivity
    rw [if_pos hp, if_neg (by omega)]
  rw [this]
  have := run_cpu runs 0 (by omega)
  simp only [Outcome.bind]
  rw [show (Act.consumeCpu 0) = Act.consumeCpu ((0 : Nat) : Int) from rfl, this, if_neg (by omega)]

theorem bump_ok {data : List Int} {i : Nat} {m : Int} (hi : i < data.length)
    (hm : ∀ v ∈ data, 0 ≤ v ∧ v ≤ m) (hb : m + 1 < 2 ^ 31) :
    ∃ d, bump data i = .ok d ∧ d.length = data.length ∧ ∀ v ∈ d, 0 ≤ v ∧ v ≤ m + 1 := by
  unfold bump
  rw [List.getElem?_eq_getElem hi]
  have hv := hm data[i] (List.getElem_mem hi)
  simp only
  rw [if_pos (by unfold InI32; omega)]
  refine ⟨_, rfl, by simp, ?_⟩
  intro v hv'
  rcases List.mem_or_eq_of_mem_set hv' with h | h
  · have := hm v h; omega
  · omega

theorem bumpAll_ok : ∀ {draws : List Nat} {data : List Int} {m : Int}, (∀ i ∈ draws, i < data.length) →
    (∀ v ∈ data, 0 ≤ v ∧ v ≤ m) → m + draws.length < 2 ^ 31 →
    ∃ d, bumpAll data draws = .ok d ∧ d.length = data.length ∧ ∀ v ∈ d, 0 ≤ v ∧ v ≤ m + draws.length := by
  intro draws
  induction draws with
  | nil => intro data m _ hm _; exact ⟨data, rfl, rfl, by simpa using hm⟩
  | cons i rest ih =>
    intro data m hi hm hb
    rw [List.length_cons] at hb
    obtain ⟨d, hd, hl, hm'⟩ := bump_ok (hi i (by simp)) hm (by omega)
    obtain ⟨d', hd', hl', hm''⟩ := ih (data := d) (m := m + 1) (fun j hj => by rw [hl]; exact hi j (by simp [hj])) hm' (by omega)
    refine ⟨d', by simp only [bumpAll, hd, Outcome.bind, hd'], by omega, ?_⟩
    intro v hv
    have := hm'' v hv
    rw [List.length_cons]
    omega

theorem run_data {p : ParsedActivity} (hp : p.func = "PolluteDataCache".toList) (reads : Int) :
    ∀ {runs : List (List Nat)} {n : Nat} {data : List Int} {m : Int}, (∀ d ∈ runs, LegalDraws p d) →
      p.arraySize = data.length → (∀ v ∈ data, 0 ≤ v ∧ v ≤ m) → n + runs.length < 2 ^ 31 →
      m + runs.length * p.arrayReadsPerIteration.toNat < 2 ^ 31 →
      ∃ a, runTimes (.polluteData n data reads) runs = .ok a := by
  intro runs
  induction runs with
  | nil => intro n data m _ _ _ _ _; exact ⟨_, rfl⟩
  | cons d rest ih =>
    intro n data m hl hs hm hn hb
    obtain ⟨hlen, hin⟩ := (hl d (by simp)).1 hp
    rw [List.length_cons] at hn hb
    have hmul : (((rest.length + 1 : Nat) : Int) * (p.arrayReadsPerIteration.toNat : Int)) =
        (rest.length : Int) * p.arrayReadsPerIteration.toNat + p.arrayReadsPerIteration.toNat := by
      rw [Int.natCast_add, Int.add_mul]; simp
    rw [hmul] at hb
    have hnn : (0 : Int) ≤ (rest.length : Int) * p.arrayReadsPerIteration.toNat :=
      Int.mul_nonneg (by omega) (by omega)
    obtain ⟨d', hd', hl', hm'⟩ := bumpAll_ok (draws := d) (data := data) (m := m)
      (fun i hi => by have := hin i hi; omega) hm (by rw [hlen]; omega)
    obtain ⟨a, ha⟩ := ih (n := n + 1) (data := d') (m := m + d.length) (fun x hx => hl x (by simp [hx]))
      (by rw [hl']; exact hs) hm' (by omega) (by rw [hlen]; omega)
    refine ⟨a, ?_⟩
    simp only [runTimes, doActivity, nextCount]
    rw [if_pos (by unfold InI32; omega)]
    simp only [Outcome.bind, hd']
    rw [show ((n : Int) + 1) = ((n + 1 : Nat) : Int) by omega]
    exact ha

theorem run_code {p : ParsedActivity} (hp : p.func = "PolluteInstructionCache".toList) (calls : Int) :
    ∀ {runs : List (List Nat)} {n : Nat}, (∀ d ∈ runs, LegalDraws p d) → n + runs.length < 2 ^ 31 →
      ∃ a, runTimes (.polluteCode n calls) runs = .ok a := by
  intro runs
  induction runs with
  | nil => intro n _ _; exact ⟨_, rfl⟩
  | cons d rest ih =>
    intro n hl hn
    rw [List.length_cons] at hn
    obtain ⟨_, hin⟩ := (hl d (by simp)).2 hp
    obtain ⟨a, ha⟩ := ih (n := n + 1) (fun x hx => hl x (by simp [hx])) (by omega)
    refine ⟨a, ?_⟩
    simp only [runTimes, doActivity, nextCount]
    rw [if_pos (by unfold InI32; omega)]
    simp only [Outcome.bind]
    rw [if_pos (List.all_eq_true.2 (fun i hi => decide_eq_true (show i < functionCount from hin i hi))), show ((n : Int) + 1) = ((n + 1 : Nat) : Int) by omega]
    exact ha

theorem run_sleep (runs : List (List Nat)) : runTimes .sleepFor runs = .ok .sleepFor := by
  induction runs with
  | nil => rfl
  | cons d rest ih => simpa [runTimes, doActivity, Outcome.bind] using ih

theorem run_spin (runs : List (List Nat)) : runTimes .spinFor runs = .ok .spinFor := by
  induction runs with
  | nil => rfl
  | cons d rest ih => simpa [runTimes, doActivity, Outcome.bind] using ih

/-- An accepted activity whose sizes fit 32 bits can be created, and run fewer than 2^31 times
whatever is drawn, if the accesses to an array are not more than 2^31 less its size.  Missing:
larger sizes, more runs, more accesses. -/
theorem C172_runs_partial (ac : ActivityConfig) (p : ParsedActivity) (runs : List (List Nat))
    (hfit : ∀ d, InI32 d →
      InI32 (getNamedSettingInt64 ac.settings "array_size".toList d) ∧
      InI32 (getNamedSettingInt64 ac.settings "array_reads_per_iteration".toList d))
    (h : parseActivityConfig ac = .ok p) (hl : ∀ d ∈ runs, LegalDraws p d) (hn : runs.length < 2 ^ 31)
    (hb : p.func = "PolluteDataCache".toList →
      p.arraySize + runs.length * p.arrayReadsPerIteration ≤ 2 ^ 31) :
    ∃ a, (allocateActivity p).bind (fun a => runTimes a runs) = .ok a := by
  rcases (C68_accepted_runnable_partial ac p hfit h).2 with ⟨hf, hs⟩ | ⟨hf, hs, hr⟩ | hf | ⟨hf, _⟩ | ⟨hf, _⟩
  · have : allocateActivity p = .ok (.consumeCpu 0) := by
      unfold allocateActivity
      rw [if_pos hf, if_neg (by omega)]
    rw [this]
    simp only [Outcome.bind]
    have := run_cpu runs 0 (by omega)
    rw [if_pos (by omega)] at this
    exact ⟨_, this⟩
  · have : allocateActivity p = .ok (.polluteData 0 ((List.range p.arraySize.toNat).map Int.ofNat) p.arrayReadsPerIteration) := by
      unfold allocateActivity
      rw [if_neg (by rw [hf]; decide), if_pos hf, if_neg (by omega), if_neg (by omega)]
    rw [this]
    simp only [Outcome.bind]
    have hb := hb hf
    refine run_data hf _ (n := 0) (m := p.arraySize - 1) hl (by simp; omega) ?_ (by omega) ?_
    · intro v hv
      obtain ⟨k, hk, rfl⟩ := List.mem_map.1 hv
      have := List.mem_range.1 hk
      exact ⟨Int.natCast_nonneg k, by show (k : Int) ≤ _; omega⟩
    · rw [Int.toNat_of_nonneg (by omega)]
      omega
  · have : allocateActivity p = .ok (.polluteCode 0 p.functionInvocationsPerIteration) := by
      unfold allocateActivity
      rw [if_neg (by rw [hf]; decide), if_neg (by rw [hf]; decide), if_pos hf]
    rw [this]
    exact run_code hf _ (n := 0) hl (by omega)
  · have : allocateActivity p = .ok .sleepFor := by
      unfold allocateActivity
      rw [if_neg (by rw [hf]; decide), if_neg (by rw [hf]; decide), if_neg (by rw [hf]; decide), if_pos hf]
    rw [this]
    exact ⟨_, run_sleep runs⟩
  · have : allocateActivity p = .ok .spinFor := by
      unfold allocateActivity
      rw [if_neg (by rw [hf]; decide), if_neg (by rw [hf]; decide), if_neg (by rw [hf]; decide),
        if_neg (by rw [hf]; decide), if_pos hf]
    rw [this]
    exact ⟨_, run_spin runs⟩

/-- A cache-polluting activity over four elements with two accesses in each run. -/
def sampleParsed : ParsedActivity where
  name := "dirty".toList
  func := "PolluteDataCache".toList
  arraySize := 4
  arrayReadsPerIteration := 2

example : (allocateActivity sampleParsed).bind (fun a => runTimes a [[3, 0], [3, 3]]) =
    .ok (.polluteData 2 [1, 1, 2, 6] 2) := by decide

example : LegalDraws sampleParsed [3, 0] := by
  refine ⟨fun _ => ⟨rfl, by decide⟩, fun h => absurd h (by decide)⟩

/-! ### C173: the numbers of runs that are reported -/

theorem run_counts {a a' : Act} {runs : List (List Nat)} (h : runTimes a runs = .ok a') :
    (∀ n : Int, a = .consumeCpu n → a' = .consumeCpu (n + runs.length)) ∧
    (∀ (n : Int) d r, a = .polluteData n d r → ∃ d', a' = .polluteData (n + runs.length) d' r) ∧
    (∀ (n : Int) c, a = .polluteCode n c → a' = .polluteCode (n + runs.length) c) ∧
    (a = .sleepFor → a' = .sleepFor) ∧ (a = .spinFor → a' = .spinFor) := by
  induction runs generalizing a with
  | nil =>
    simp only [runTimes] at h
    cases h
    refine ⟨?_, ?_, ?_, id, id⟩
    · rintro n rfl; simp
    · rintro n d r rfl; exact ⟨d, by simp⟩
    · rintro n c rfl; simp
  | cons d rest ih =>
    simp only [runTimes] at h
    cases hd : doActivity a d with
    | ok b =>
      rw [hd] at h
      obtain ⟨h1, h2, h3, h4, h5⟩ := ih h
      have hlen : ∀ n : Int, n + 1 + (rest.length : Int) = n + ((d :: rest).length : Nat) := by
        intro n; rw [List.length_cons]; omega
      refine ⟨?_, ?_, ?_, ?_, ?_⟩
      · rintro n rfl
        simp only [doActivity, nextCount] at hd
        split at hd
        · simp only [Outcome.bind] at hd; cases hd
          rw [h1 _ rfl, hlen]
        · cases hd
      · rintro n dt r rfl
        simp only [doActivity, nextCount] at hd
        split at hd
        · cases hb : bumpAll dt d with
          | ok d2 =>
            simp only [Outcome.bind, hb] at hd; cases hd
            obtain ⟨d', hd'⟩ := h2 _ _ _ rfl
            exact ⟨d', by rw [hd', hlen]⟩
          | _ => simp only [Outcome.bind, hb] at hd; cases hd
        · cases hd
      · rintro n c rfl
        simp only [doActivity, nextCount] at hd
        split at hd
        · simp only [Outcome.bind] at hd
          split at hd
          · cases hd; rw [h3 _ _ rfl, hlen]
          · cases hd
        · cases hd
      · rintro rfl
        simp only [doActivity] at hd; cases hd
        exact h4 rfl
      · rintro rfl
        simp only [doActivity] at hd; cases hd
        exact h5 rfl
    | _ => rw [hd] at h; cases h

/-- What an activity that ran reports. -/
theorem ran_log {j : Job} {a : Act} (h : Ran j a) :
    activityLog a = if ReportsRuns j.parsed.func ∧ j.runs.length ≠ 0 then [(iterationCount, (j.runs.length : Int))] else [] := by
  unfold Ran at h
  have hz : ((j.runs.length : Int) ≠ 0) ↔ j.runs.length ≠ 0 := by omega
  by_cases h1 : j.parsed.func = "ConsumeCpu".toList
  · simp only [allocateActivity, if_pos h1] at h
    split at h
    · cases h
    · rw [(run_counts h).1 0 rfl]
      simp only [activityLog, Int.zero_add, hz, ReportsRuns, h1, true_or, true_and]
  · by_cases h2 : j.parsed.func = "PolluteDataCache".toList
    · simp only [allocateActivity, if_neg h1, if_pos h2] at h
      split at h
      · cases h
      · split at h
        · cases h
        · obtain ⟨d', hd'⟩ := (run_counts h).2.1 _ _ _ rfl
          rw [hd']
          simp only [activityLog, Int.zero_add, hz, ReportsRuns, h2, true_or, or_true, true_and]
    · by_cases h3 : j.parsed.func = "PolluteInstructionCache".toList
      · simp only [allocateActivity, if_neg h1, if_neg h2, if_pos h3] at h
        rw [(run_counts h).2.2.1 _ _ rfl]
        simp only [activityLog, Int.zero_add, hz, ReportsRuns, h3, or_true, true_and]
      · have hno : ¬ ReportsRuns j.parsed.func := by
          rintro (h | h | h)
          · exact h1 h
          · exact h2 h
          · exact h3 h
        rw [if_neg (fun hc => hno hc.1)]
        simp only [allocateActivity, if_neg h1, if_neg h2, if_neg h3] at h
        split at h
        · rw [(run_counts h).2.2.2.1 rfl]; rfl
        · split at h
          · rw [(run_counts h).2.2.2.2 rfl]; rfl
          · cases h

/-- The counter of an activity. -/
def countOf : Act → Int
  | .consumeCpu n => n
  | .polluteData n _ _ => n
  | .polluteCode n _ => n
  | .sleepFor => 0
  | .spinFor => 0

theorem count_fits {a a' : Act} {runs : List (List Nat)} (h0 : countOf a < 2 ^ 31) (h : runTimes a runs = .ok a') :
    countOf a' < 2 ^ 31 := by
  induction runs generalizing a with
  | nil => simp only [runTimes] at h; cases h; exact h0
  | cons d rest ih =>
    simp only [runTimes] at h
    cases hd : doActivity a d with
    | ok b =>
      rw [hd] at h
      refine ih ?_ h
      cases a <;> simp only [doActivity, nextCount] at hd
      · split at hd
        · rename_i hi
          simp only [Outcome.bind] at hd; cases hd
          exact hi.2
        · cases hd
      · split at hd
        · rename_i n dt r hi
          cases hb : bumpAll dt d with
          | ok d2 => simp only [Outcome.bind, hb] at hd; cases hd; exact hi.2
          | _ => simp only [Outcome.bind, hb] at hd; cases hd
        · cases hd
      · split at hd
        · rename_i hi
          simp only [Outcome.bind] at hd
          split at hd
          · cases hd; exact hi.2
          · cases hd
        · cases hd
      · cases hd; decide
      · cases hd; decide
    | _ => rw [hd] at h; cases h

theorem log_value {a : Act} {m : Str} {v : Int} (h : (m, v) ∈ activityLog a) : v = countOf a := by
  cases a <;> simp only [activityLog] at h
  case sleepFor => cases h
  case spinFor => cases h
  all_goals
    split at h
    · simp only [List.mem_singleton, Prod.mk.injEq] at h; exact h.2
    · cases h

theorem alloc_count {p : ParsedActivity} {a : Act} (h : allocateActivity p = .ok a) : countOf a = 0 := by
  unfold allocateActivity at h
  repeat' split at h
  all_goals first | (cases h; rfl) | cases h

/-- What is counted fits the counter. -/
theorem ran_bound {j : Job} {a : Act} (h : Ran j a) (hc : ReportsRuns j.parsed.func) : j.runs.length < 2 ^ 31 := by
  by_cases hz : j.runs.length = 0
  · omega
  · have hl := ran_log h
    rw [if_pos ⟨hc, hz⟩] at hl
    have := log_value (a := a) (m := iterationCount) (v := j.runs.length) (by rw [hl]; simp)
    unfold Ran at h
    cases ha : allocateActivity j.parsed with
    | ok a0 =>
      rw [ha] at h
      have := count_fits (by rw [alloc_count ha]; decide) h
      omega
    | _ => rw [ha] at h; cases h

/-- The part of the sum that one action gives. -/
def share (config : Str) (j : Job) : Nat := if j.config = config ∧ ReportsRuns j.parsed.func then j.runs.length else 0

/-- The totals are the sums. -/
def Sums (t : Totals) (f : Str → Nat) : Prop :=
  ∀ c m, reported t c m = if m = iterationCount ∧ f c ≠ 0 then some (f c : Int) else none

theorem addMetric_ok {t : Totals} {k : Str × Str} {v : Int} (hv : InI64 v)
    (h : ∀ x, (t.find? fun e => e.1 = k).map (·.2) = some x → InI64 (x + v)) :
    ∃ t', addMetric t k v = .ok t' ∧
      (t'.find? fun e => e.1 = k).map (·.2) = some (((t.find? fun e => e.1 = k).map (·.2)).getD 0 + v) ∧
      ∀ k', k' ≠ k → (t'.find? fun e => e.1 = k').map (·.2) = (t.find? fun e => e.1 = k').map (·.2) := by
  induction t with
  | nil =>
    refine ⟨[(k, v)], by simp only [addMetric, if_pos hv], by simp, ?_⟩
    intro k' hk'
    simp [hk'.symm]
  | cons e rest ih =>
    obtain ⟨k0, x⟩ := e
    by_cases hk : k0 = k
    · subst hk
      have hx := h x (by simp)
      refine ⟨(k0, x + v) :: rest, by simp only [addMetric, if_true, if_pos hx], by simp, ?_⟩
      intro k' hk'
      simp [hk'.symm]
    · obtain ⟨t', ht', h1, h2⟩ := ih (fun y hy => h y (by simpa [hk] using hy))
      refine ⟨(k0, x) :: t', by simp only [addMetric, if_neg hk, ht', Outcome.bind], by simpa [hk] using h1, ?_⟩
      intro k' hk'
      by_cases h0 : k0 = k'
      · simp [h0]
      · simpa [h0] using h2 k' hk'

theorem addLog_ok {t : Totals} {f : Str → Nat} {j : Job} {a : Act} (hs : Sums t f) (hr : Ran j a)
    (hb : f j.config + 2 ^ 31 ≤ 2 ^ 63) :
    ∃ t', addLog t j.config (activityLog a) = .ok t' ∧ Sums t' (fun c => f c + share c j) := by
  rw [ran_log hr]
  by_cases hc : ReportsRuns j.parsed.func ∧ j.runs.length ≠ 0
  · rw [if_pos hc]
    have hlt := ran_bound hr hc.1
    have hrep := hs j.config iterationCount
    obtain ⟨t', ht', h1, h2⟩ := addMetric_ok (t := t) (k := (j.config, iterationCount)) (v := j.runs.length)
      (by unfold InI64; omega) (by
        intro x hx
        unfold reported at hrep
        rw [hrep] at hx
        split at hx
        · cases hx; unfold InI64; omega
        · cases hx)
    refine ⟨t', by simp only [addLog, ht', Outcome.bind], ?_⟩
    intro c m
    by_cases hk : (c, m) = (j.config, iterationCount)
    · cases hk
      unfold reported at hrep ⊢
      have hsh : share j.config j = j.runs.length := by unfold share; rw [if_pos ⟨rfl, hc.1⟩]
      have hnz : f j.config + j.runs.length ≠ 0 := by omega
      rw [h1, hrep]
      simp only [hsh, true_and, if_pos hnz]
      by_cases h0 : f j.config = 0
      · simp [h0]
      · rw [if_pos h0]; simp
    · have := h2 _ hk
      unfold reported
      rw [this]
      have := hs c m
      unfold reported at this
      rw [this]
      by_cases hm : m = iterationCount
      · have : j.config ≠ c := fun h => hk (by rw [h, hm])
        simp only [share, this, false_and, if_false, Nat.add_zero]
      · simp only [hm, false_and, if_false]
  · rw [if_neg hc]
    refine ⟨t, rfl, ?_⟩
    have : ∀ c, share c j = 0 := by
      intro c
      unfold share
      split
      · rename_i h
        exact Classical.byContradiction (fun hn => hc ⟨h.2, hn⟩)
      · rfl
    intro c m
    simpa [this] using hs c m

theorem share_le {j : Job} {a : Act} (hr : Ran j a) (c : Str) : share c j < 2 ^ 31 := by
  unfold share
  split
  · rename_i h; exact ran_bound hr h.2
  · decide

theorem updateLog_ok : ∀ {l : List (Job × Act)} {t : Totals} {f : Str → Nat} {n : Nat}, Sums t f →
    (∀ x ∈ l, Ran x.1 x.2) → (∀ c, f c ≤ n * (2 ^ 31)) → n + l.length < 2 ^ 32 →
    ∃ t', updateLog t (l.map fun x => (x.1.config, some x.2)) = .ok t' ∧
      Sums t' (fun c => f c + runsOf c (l.map (·.1))) ∧
      ∀ c, f c + runsOf c (l.map (·.1)) ≤ (n + l.length) * (2 ^ 31) := by
  intro l
  induction l with
  | nil => intro t f n hs _ hb _; exact ⟨t, rfl, by simpa [runsOf] using hs, by simpa [runsOf] using hb⟩
  | cons x rest ih =>
    intro t f n hs hr hb hn
    obtain ⟨j, a⟩ := x
    have hra : Ran j a := hr (j, a) (by simp)
    rw [List.length_cons] at hn
    obtain ⟨t1, ht1, hs1⟩ := addLog_ok hs hra (by have := hb j.config; omega)
    obtain ⟨t2, ht2, hs2, hb2⟩ := ih (n := n + 1) hs1 (fun y hy => hr y (by simp [hy]))
      (by intro c; have := hb c; have := share_le hra c; omega) (by omega)
    generalize hB : (2 : Nat) ^ 31 = B at hb2 ⊢
    have hassoc : ∀ c, f c + share c j + runsOf c (rest.map (·.1)) = f c + runsOf c (((j, a) :: rest).map (·.1)) := by
      intro c; simp only [List.map_cons, runsOf, share]; omega
    refine ⟨t2, ?_, ?_, ?_⟩
    · simp only [List.map_cons, updateLog, ht1, Outcome.bind]; exact ht2
    · rw [← funext hassoc]; exact hs2
    · intro c; rw [← hassoc c, List.length_cons, show n + (rest.length + 1) = n + 1 + rest.length by omega]; exact hb2 c

theorem runsOf_append (c : Str) (a b : List Job) : runsOf c (a ++ b) = runsOf c a + runsOf c b := by
  induction a with
  | nil => simp [runsOf]
  | cons j rest ih => simp only [List.cons_append, runsOf, ih]; omega

theorem totals_ok : ∀ {ls : List (List (Job × Act))} {t : Totals} {f : Str → Nat} {n : Nat}, Sums t f →
    (∀ x ∈ ls.flatten, Ran x.1 x.2) → (∀ c, f c ≤ n * (2 ^ 31)) → n + ls.flatten.length < 2 ^ 32 →
    ∃ t', totals t (ls.map fun l => l.map fun x => (x.1.config, some x.2)) = .ok t' ∧
      Sums t' (fun c => f c + runsOf c (ls.flatten.map (·.1))) := by
  intro ls
  induction ls with
  | nil => intro t f n hs _ hb _; exact ⟨t, rfl, by simpa [runsOf] using hs⟩
  | cons l rest ih =>
    intro t f n hs hr hb hn
    simp only [List.flatten_cons, List.length_append] at hn hr
    obtain ⟨t1, ht1, hs1, hb1⟩ := updateLog_ok hs (fun x hx => hr x (List.mem_append_left _ hx)) hb (by omega)
    obtain ⟨t2, ht2, hs2⟩ := ih (n := n + l.length) hs1 (fun x hx => hr x (List.mem_append_right _ hx)) hb1 (by omega)
    refine ⟨t2, ?_, ?_⟩
    · simp only [List.map_cons, totals, ht1, Outcome.bind]; exact ht2
    · intro c m
      have := hs2 c m
      simpa only [List.flatten_cons, List.map_append, runsOf_append, Nat.add_assoc] using this

/-- The results report for every activity configuration how often its activities ran, over all
action lists that ended, in whatever order they ended: nothing if they did not run, or if they are
of a kind that does not count, and nothing else.  (Fewer than 2^32 activity actions.) -/
theorem C173_reported (ls : List (List (Job × Act))) (hr : ∀ l ∈ ls, ∀ x ∈ l, Ran x.1 x.2)
    (hn : ls.flatten.length < 2 ^ 32) :
    ∃ t, totals [] (ls.map fun l => l.map fun x => (x.1.config, some x.2)) = .ok t ∧
      ∀ config metric, reported t config metric =
        if metric = "iteration_count".toList ∧ runsOf config (ls.flatten.map (·.1)) ≠ 0 then
          some (runsOf config (ls.flatten.map (·.1)) : Int) else none := by
  obtain ⟨t, ht, hs⟩ := totals_ok (ls := ls) (t := []) (f := fun _ => 0) (n := 0)
    (fun c m => by simp [reported])
    (fun x hx => by obtain ⟨l, hl, hxl⟩ := List.mem_flatten.1 hx; exact hr l hl x hxl)
    (fun c => by omega) (by omega)
  refine ⟨t, ht, fun c m => ?_⟩
  have := hs c m
  unfold iterationCount at this
  simpa only [Nat.zero_add] using this

example : Ran ⟨"AC".toList, sampleParsed, [[3, 0], [3, 3]]⟩ (.polluteData 2 [1, 1, 2, 6] 2) := by
  unfold Ran; decide

example : totals [] [[("AC".toList, some (.polluteData 20 [] 2)), ("B".toList, some .spinFor)],
      [("AC".toList, some (.consumeCpu 30))]] =
    .ok [(("AC".toList, "iteration_count".toList), 50)] := by decide

/-! ### C295: accesses to the array -/

theorem bumpAll_content {draws : List Nat} : ∀ {data d : List Int}, bumpAll data draws = .ok d →
    ∀ i : Nat, d[i]? = data[i]?.map fun v => v + (draws.count i : Int) := by
  induction draws with
  | nil =>
    intro data d h i
    rw [bumpAll, Outcome.ok.injEq] at h
    subst h
    cases data[i]? <;> simp
  | cons j rest ih =>
    intro data d h i
    simp only [bumpAll] at h
    cases hb : bump data j with
    | ok m =>
      rw [hb] at h
      have hm := ih h i
      unfold bump at hb
      split at hb
      · cases hb
      · next v hv =>
        split at hb
        · rw [Outcome.ok.injEq] at hb
          subst hb
          rw [hm, List.getElem?_set, List.count_cons]
          by_cases hij : j = i
          · subst hij
            have hlt : j < data.length := by
              rcases Nat.lt_or_ge j data.length with h | h
              · exact h
              · rw [List.getElem?_eq_none h] at hv; cases hv
            rw [if_pos rfl, if_pos hlt, hv]
            simp only [Option.map_some, beq_self_eq_true, if_true, Option.some.injEq]
            omega
          · rw [if_neg hij, if_neg (by simpa using hij)]
            simp
        · cases hb
    | error m => rw [hb] at h; cases h
    | ub => rw [hb] at h; cases h
    | crash => rw [hb] at h; cases h

theorem runTimes_content {reads : Int} {runs : List (List Nat)} : ∀ {n : Int} {data : List Int} {a : Act},
    runTimes (.polluteData n data reads) runs = .ok a →
    ∃ d, a = .polluteData (n + runs.length) d reads ∧
      ∀ i : Nat, d[i]? = data[i]?.map fun v => v + (runs.flatten.count i : Int) := by
  induction runs with
  | nil =>
    intro n data a h
    rw [runTimes, Outcome.ok.injEq] at h
    exact ⟨data, by rw [← h]; simp, fun i => by cases data[i]? <;> simp⟩
  | cons draws rest ih =>
    intro n data a h
    simp only [runTimes, doActivity, nextCount] at h
    split at h
    · cases hb : bumpAll data draws with
      | ok m =>
        simp only [hb, Outcome.bind] at h
        obtain ⟨d, h1, h2⟩ := ih h
        refine ⟨d, ?_, fun i => ?_⟩
        · rw [h1, List.length_cons]
          congr 1
          omega
        · rw [h2, bumpAll_content hb, Option.map_map, List.flatten_cons, List.count_append]
          congr 1
          funext v
          simp only [Function.comp]
          omega
      | error m => simp only [hb, Outcome.bind] at h; cases h
      | ub => simp only [hb, Outcome.bind] at h; cases h
      | crash => simp only [hb, Outcome.bind] at h; cases h
    · cases h

/-- C295: an activity that pollutes the data cache has an array of the size it was configured with, and every
access changes the element that was drawn and no other: after some runs, element `i` is `i` and the number
of times it was drawn in them. -/
theorem C295_accesses (p : ParsedActivity) (hp : p.func = "PolluteDataCache".toList) (runs : List (List Nat)) (a : Act)
    (h : (allocateActivity p).bind (fun a => runTimes a runs) = .ok a) :
    ∃ data, a = .polluteData runs.length data p.arrayReadsPerIteration ∧ (data.length : Int) = p.arraySize ∧
      ∀ i : Nat, (i : Int) < p.arraySize → data[i]? = some ((i : Int) + (runs.flatten.count i : Int)) := by
  unfold allocateActivity at h
  rw [if_neg (by rw [hp]; decide), if_pos hp] at h
  split at h
  · cases h
  · next hneg =>
    split at h
    · cases h
    · simp only [Outcome.bind] at h
      obtain ⟨d, h1, h2⟩ := runTimes_content h
      have hget : ∀ i : Nat, ((List.range p.arraySize.toNat).map Int.ofNat)[i]? =
          if i < p.arraySize.toNat then some (i : Int) else none := by
        intro i
        rw [List.getElem?_map]
        by_cases hi : i < p.arraySize.toNat
        · rw [List.getElem?_range hi, if_pos hi]
          rfl
        · rw [List.getElem?_eq_none (by simpa using hi), if_neg hi]
          rfl
      refine ⟨d, by rw [h1]; simp, ?_, fun i hi => ?_⟩
      · have hl : d.length = p.arraySize.toNat := by
          have e : ∀ i : Nat, i < d.length ↔ i < p.arraySize.toNat := by
            intro i
            have := h2 i
            rw [hget] at this
            constructor
            · intro hd
              rw [List.getElem?_eq_getElem hd] at this
              split at this
              · assumption
              · cases this
            · intro hs
              rw [if_pos hs] at this
              rcases Nat.lt_or_ge i d.length with h | h
              · exact h
              · rw [List.getElem?_eq_none h] at this; cases this
          have h3 := e d.length
          have h4 := e p.arraySize.toNat
          omega
        omega
      · rw [h2, hget, if_pos (by omega)]
        rfl

example : (allocateActivity {
      name := [], func := "PolluteDataCache".toList, arraySize := 4, arrayReadsPerIteration := 2 }).bind (fun a => runTimes a [[3, 1], [3, 0]]) =
    .ok (.polluteData 2 [1, 2, 2, 5] 2) := by decide

end Distbench.Activity
