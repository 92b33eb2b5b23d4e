import Verif.Spec.LocalStart
import Verif.Lemmas.Workloads

/-! Property theorems C304: starting a sequencer and nodes on the local machine. -/

namespace Distbench
open LocalStart Spec

namespace LocalStart

theorem getopts_local {os : List (Char × Str)} {arguments : List Str}
    (h : LocalOptions os arguments) : Workloads.getopts letters none arguments = os := by
  induction h with
  | none => rfl
  | @flag c os arguments hc _ ih =>
    rcases hc with rfl | rfl
    · rw [Workloads.getopts_word (by decide),
        show Workloads.cluster letters ['v'] = ([('v', [])], none) by decide, ih]
      rfl
    · rw [Workloads.getopts_word (by decide),
        show Workloads.cluster letters ['d'] = ([('d', [])], none) by decide, ih]
      rfl
  | @value c a os arguments hc _ ih =>
    rcases hc with rfl | rfl
    · rw [Workloads.getopts_word (by decide),
        show Workloads.cluster letters ['n'] = ([], some 'n') by decide, Workloads.getopts, ih]
      rfl
    · rw [Workloads.getopts_word (by decide),
        show Workloads.cluster letters ['c'] = ([], some 'c') by decide, Workloads.getopts, ih]
      rfl

theorem letters_local {os : List (Char × Str)} {arguments : List Str}
    (h : LocalOptions os arguments) :
    ∀ o ∈ os, o.1 = 'v' ∨ o.1 = 'd' ∨ o.1 = 'n' ∨ o.1 = 'c' := by
  induction h with
  | none => simp
  | flag hc _ ih =>
    intro o ho
    rcases List.mem_cons.1 ho with rfl | ho
    · rcases hc with rfl | rfl <;> simp
    · exact ih o ho
  | value hc _ ih =>
    intro o ho
    rcases List.mem_cons.1 ho with rfl | ho
    · rcases hc with rfl | rfl <;> simp
    · exact ih o ho

theorem read_local (os : List (Char × Str)) (v : Vars)
    (h : ∀ o ∈ os, o.1 = 'v' ∨ o.1 = 'd' ∨ o.1 = 'n' ∨ o.1 = 'c') :
    ∃ v', readOptions os v = some v' ∧
      v'.nodes = (match (os.filter fun o => o.1 = 'n').getLast? with
        | some o => o.2 | none => v.nodes) ∧
      (v'.debug = true ↔ v.debug = true ∨ ∃ a, ('d', a) ∈ os) := by
  induction os generalizing v with
  | nil => exact ⟨v, rfl, rfl, by simp⟩
  | cons o os ih =>
    obtain ⟨c, a⟩ := o
    have ih := fun v => ih v fun o ho => h o (List.mem_cons_of_mem _ ho)
    have hc := h (c, a) (List.mem_cons_self ..)
    simp only at hc
    rcases hc with rfl | rfl | rfl | rfl
    · obtain ⟨v', h1, h2, h3⟩ := ih { v with verbose := true }
      exact ⟨v', by simpa [readOptions] using h1, by simpa using h2, by simpa using h3⟩
    · obtain ⟨v', h1, h2, h3⟩ := ih { v with debug := true }
      exact ⟨v', by simpa [readOptions] using h1, by simpa using h2, by simp at h3; simp [h3]⟩
    · obtain ⟨v', h1, h2, h3⟩ := ih { v with nodes := a }
      refine ⟨v', by simpa [readOptions] using h1, ?_, by simpa using h3⟩
      rw [h2, List.filter_cons_of_pos (by simp), List.getLast?_cons]
      cases (os.filter fun o => o.1 = 'n').getLast? <;> rfl
    · obtain ⟨v', h1, h2, h3⟩ := ih { v with compile := a }
      exact ⟨v', by simpa [readOptions] using h1, by simpa using h2, by simpa using h3⟩

theorem managers_map (l : List Int) (f : Int → Int) (s : Int) :
    managersOf (l.map fun i => .nodeManager s (f i)) = l.map fun i => (s, f i) := by
  induction l with
  | nil => rfl
  | cons a l ih => simp [managersOf, ih]

theorem sequencers_map (l : List Int) (f : Int → Int) (s : Int) :
    sequencersOf (l.map fun i => .nodeManager s (f i)) = [] := by
  induction l with
  | nil => rfl
  | cons a l ih => simpa [sequencersOf] using ih

/-- The numbers that `seq` counts. -/
def counted (n : Nat) : List Int := (List.range n).map fun i : Nat => (i : Int) + 1

theorem counted_mem {n : Nat} {i : Int} (h : i ∈ counted n) : 1 ≤ i ∧ i ≤ n := by
  obtain ⟨k, hk, rfl⟩ := List.mem_map.1 h
  have := List.mem_range.1 hk
  omega

theorem ports_length (n : Nat) (s t : Int) :
    ((counted n).map fun i => (s, t - i)).length = n := by
  simp [counted]

theorem port_valid {i : Int} (h1 : 1 ≤ i) (h2 : i ≤ 9998) : ValidPort (9999 - i) :=
  ⟨by omega, by omega⟩

theorem port_other {i : Int} (h1 : 1 ≤ i) : 9999 - i ≠ 10000 := by omega

theorem ports_valid (n : Nat) (hn : n ≤ 9998) :
    ∀ m ∈ (counted n).map fun i => ((10000 : Int), 9999 - i),
      m.1 = 10000 ∧ m.2 ≠ 10000 ∧ ValidPort m.2 := by
  rintro ⟨a, b⟩ hm
  obtain ⟨i, hi, he⟩ := List.mem_map.1 hm
  rw [Prod.mk.injEq] at he
  obtain ⟨h1, h2⟩ := counted_mem hi
  have hn' : (n : Int) ≤ 9998 := by omega
  refine ⟨he.1.symm, ?_⟩
  show b ≠ 10000 ∧ ValidPort b
  rw [← he.2]
  exact ⟨port_other h1, port_valid h1 (Int.le_trans h2 hn')⟩

theorem ports_nodup (n : Nat) (s t : Int) :
    (((counted n).map fun i => (s, t - i)).map (·.2)).Nodup := by
  rw [counted, List.map_map, List.map_map]
  refine List.Pairwise.map _ ?_ List.nodup_range
  intro i j hij h
  simp only [Function.comp] at h
  omega

/-- The processes of given options. -/
theorem script_local {os : List (Char × Str)} {arguments : List Str}
    (h : LocalOptions os arguments) :
    ∃ v, v.nodes = nodesAsked os ∧ (v.debug = true ↔ debugAsked os) ∧
      script true true true arguments = .running (processes v) := by
  obtain ⟨v, h1, h2, h3⟩ := read_local os {} (letters_local h)
  refine ⟨v, h2, by simpa [debugAsked] using h3, ?_⟩
  unfold script
  rw [getopts_local h, h1]
  rfl

/-- C304, without debugging.  Whatever the options and their order, one sequencer is started, at port
10000, and it is told to start the nodes that were asked for. -/
theorem C304_plain {os : List (Char × Str)} {arguments : List Str} (h : LocalOptions os arguments)
    (hd : ¬ debugAsked os) :
    ∃ procs, script true true true arguments = .running procs ∧
      sequencersOf procs = [(10000, some (nodesAsked os))] ∧ managersOf procs = [] := by
  obtain ⟨v, h1, h2, h3⟩ := script_local h
  refine ⟨_, h3, ?_⟩
  unfold processes
  rw [if_neg fun e => hd (h2.1 e), h1]
  exact ⟨rfl, rfl⟩

/-- C304, with debugging.  For up to 9998 nodes: one sequencer is started, at port 10000, with no
nodes of its own, and as many node managers as were asked for, all of which know the sequencer, at
different ports, none of which is the sequencer's.

Missing: more nodes; see `C304_ports_negation`. -/
theorem C304_debug_partial {os : List (Char × Str)} {arguments : List Str}
    (h : LocalOptions os arguments) (hd : debugAsked os) {n : Nat} (hn : nodesAsked os = decimal n)
    (hle : n ≤ 9998) :
    ∃ procs, script true true true arguments = .running procs ∧
      sequencersOf procs = [(10000, none)] ∧ (managersOf procs).length = n ∧
      (∀ m ∈ managersOf procs, m.1 = 10000 ∧ m.2 ≠ 10000 ∧ ValidPort m.2) ∧
      ((managersOf procs).map (·.2)).Nodup := by
  obtain ⟨v, h1, h2, h3⟩ := script_local h
  refine ⟨_, h3, ?_⟩
  unfold processes
  rw [if_pos (h2.2 hd), h1, hn]
  have hs : seq (decimal n) = counted n := by
    unfold seq
    rw [Workloads.testNumber_decimal (Nat.lt_of_le_of_lt hle (by decide))]
    simp only [Int.toNat_natCast]
    rfl
  rw [hs]
  simp only [sequencersOf, managersOf]
  rw [sequencers_map, managers_map]
  exact ⟨rfl, ports_length n _ _, ports_valid n hle, ports_nodup n _ _⟩

/-- C304 is false in general: with debugging and 10000 nodes or more, some node manager is given a
negative port. -/
theorem C304_ports_negation {os : List (Char × Str)} {arguments : List Str}
    (h : LocalOptions os arguments) (hd : debugAsked os) {n : Nat} (hn : nodesAsked os = decimal n)
    (hle : 10000 ≤ n) (hb : n < 2 ^ 63) :
    ∃ procs, script true true true arguments = .running procs ∧
      ∃ m ∈ managersOf procs, m.2 < 0 := by
  obtain ⟨v, h1, h2, h3⟩ := script_local h
  refine ⟨_, h3, ?_⟩
  unfold processes
  rw [if_pos (h2.2 hd), h1, hn]
  have hs : seq (decimal n) = counted n := by
    unfold seq
    rw [Workloads.testNumber_decimal hb]
    rfl
  rw [hs]
  simp only [managersOf]
  rw [managers_map, counted, List.map_map]
  exact ⟨_, List.mem_map.2 ⟨9999, List.mem_range.2 (by omega), rfl⟩, by simp⟩

/-- C304, when it does not come up.  Nothing is started without the build tool or without a build,
and a sequencer that does not answer is reported; the statuses differ. -/
theorem C304_status {os : List (Char × Str)} {arguments : List Str}
    (h : LocalOptions os arguments) (bazel builds answers : Bool) :
    (bazel = false → script bazel builds answers arguments = .error 1 []) ∧
      (bazel = true → builds = false → script bazel builds answers arguments = .error 2 []) ∧
      (bazel = true → builds = true → answers = false →
        ∃ procs, script bazel builds answers arguments = .error 3 procs) ∧
      ((∃ procs, script bazel builds answers arguments = .running procs) ↔
        bazel = true ∧ builds = true ∧ answers = true) := by
  obtain ⟨v, h1, -, -⟩ := read_local os {} (letters_local h)
  unfold script
  rw [getopts_local h, h1]
  cases bazel <;> cases builds <;> cases answers <;> simp

example : LocalOptions [('n', "7".toList), ('d', []), ('n', "3".toList)]
    [['-', 'n'], "7".toList, ['-', 'd'], ['-', 'n'], "3".toList] :=
  .value (.inl rfl) (.flag (.inr rfl) (.value (.inl rfl) .none))

example : ∃ procs, script true true true [['-', 'n'], "7".toList, ['-', 'd'], ['-', 'n'], "3".toList]
    = .running procs ∧ (managersOf procs).length = 3 := by
  obtain ⟨procs, h1, -, h2, -⟩ := C304_debug_partial (n := 3)
    (os := [('n', "7".toList), ('d', []), ('n', "3".toList)])
    (arguments := [['-', 'n'], "7".toList, ['-', 'd'], ['-', 'n'], "3".toList])
    (.value (.inl rfl) (.flag (.inr rfl) (.value (.inl rfl) .none))) ⟨[], by simp⟩
    (by decide +kernel) (by decide)
  exact ⟨procs, h1, h2⟩

example : ∃ procs, script true true true [['-', 'v'], ['-', 'n'], "5".toList] = .running procs ∧
    sequencersOf procs = [(10000, some "5".toList)] ∧ managersOf procs = [] :=
  C304_plain (.flag (.inl rfl) (.value (.inl rfl) .none)) (by simp [debugAsked])

example : ∃ procs, script true true true [['-', 'd'], ['-', 'n'], "10000".toList] = .running procs ∧
    ∃ m ∈ managersOf procs, m.2 < 0 :=
  C304_ports_negation (n := 10000) (.flag (.inr rfl) (.value (.inl rfl) .none)) ⟨[], by simp⟩
    (by decide +kernel) (by decide) (by decide)

example : script false true true [['-', 'd']] = .error 1 [] :=
  (C304_status (.flag (.inr rfl) .none) false true true).1 rfl

end LocalStart
end Distbench
