import Verif.Spec.Modes
import Verif.Props.Commands
import Verif.Props.Cli

/-! Properties of how the `distbench` binary is started, of `test_preview` and of the nodes that a
test sequencer runs itself. -/

namespace Distbench.Modes
open Distbench.Spec Services Placement Sequencer Commands

/-! ### the choice of the mode -/

theorem modeName_inj {m m' : Mode} (h : modeName m = modeName m') : m = m' := by
  revert h
  cases m <;> cases m' <;> first | (intro _; rfl) | (intro h; exact absurd h (by decide))

theorem modeName_help (m : Mode) : modeName m ≠ "help".toList := by
  cases m <;> decide

theorem withoutArguments_eq (m : Mode) (arguments : List Str) :
    withoutArguments m arguments = if arguments = [] then .runs m [] else .usage 1 := by
  unfold withoutArguments validArguments
  cases arguments <;> simp

theorem choose_mode (m : Mode) (arguments : List Str) :
    choose (modeName m) arguments =
      if arguments ≠ [] ∧ m ≠ .nodeManager then .usage 1 else .runs m arguments := by
  unfold choose
  simp only [withoutArguments_eq]
  cases m with
  | testSequencer =>
    rw [if_pos (by rfl)]
    cases arguments <;> simp
  | nodeManager =>
    rw [if_neg (by decide), if_pos (by rfl)]
    simp
  | runTests =>
    rw [if_neg (by decide), if_neg (by decide), if_pos (by rfl)]
    cases arguments <;> simp
  | checkTest =>
    rw [if_neg (by decide), if_neg (by decide), if_neg (by decide), if_pos (by rfl)]
    cases arguments <;> simp
  | testPreview =>
    rw [if_neg (by decide), if_neg (by decide), if_neg (by decide), if_neg (by decide), if_pos (by rfl)]
    cases arguments <;> simp

theorem choose_help (arguments : List Str) : choose "help".toList arguments = .usage 0 := by
  unfold choose
  rw [if_neg (by decide), if_neg (by decide), if_neg (by decide), if_neg (by decide), if_neg (by decide),
    if_pos rfl]

theorem choose_other {name : Str} (arguments : List Str) (h : ∀ m, name ≠ modeName m)
    (hh : name ≠ "help".toList) : choose name arguments = .usage 1 := by
  unfold choose
  have h1 : name ≠ "test_sequencer".toList := h .testSequencer
  have h2 : name ≠ "node_manager".toList := h .nodeManager
  have h3 : name ≠ "run_tests".toList := h .runTests
  have h4 : name ≠ "check_test".toList := h .checkTest
  have h5 : name ≠ "test_preview".toList := h .testPreview
  rw [if_neg h1, if_neg h2, if_neg h3, if_neg h4, if_neg h5, if_neg hh]

theorem main_h {parse : List Str → Option (List Str)} {argv : List Str} (h : "-h".toList ∈ argv) :
    main parse argv = .ok (.usage 0) := by
  unfold main
  rw [if_pos (List.any_eq_true.2 ⟨_, h, by simp⟩)]

theorem main_positional {parse : List Str → Option (List Str)} {argv : List Str}
    (h : "-h".toList ∉ argv) : main parse argv =
      .ok (match parse argv with
      | none => .flags
      | some (_ :: name :: arguments) =>
        if arguments.length + 2 ≤ sizeMax then choose name arguments else .usage 1
      | some _ => .usage 1) := by
  unfold main
  have : argv.any (fun argument => argument == "-h".toList) = false := by
    rw [List.any_eq_false]
    intro a ha he
    rw [beq_iff_eq] at he
    exact h (he ▸ ha)
  rw [this]
  simp only [Bool.false_eq_true, if_false]
  cases parse argv with
  | none => rfl
  | some l =>
    match l with
    | [] => rfl
    | [_] => rfl
    | p :: name :: arguments =>
      dsimp only [List.drop, List.getElem?_cons_succ, List.getElem?_cons_zero, Option.getD]
      unfold validArguments
      by_cases hl : arguments.length + 2 ≤ sizeMax
      · rw [if_pos hl, if_neg]
        simp only [List.length_cons]
        simp
        omega
      · rw [if_neg hl, if_pos]
        simp only [List.length_cons]
        simp
        omega

/-- C285.  distbench runs a mode, with given arguments, exactly if it is asked to: for every command
line and whatever the flags in it mean.  (A command line has fewer than 2^64 arguments.) -/
theorem C285_runs (parse : List Str → Option (List Str)) (argv : List Str)
    (hfit : ∀ l, parse argv = some l → l.length < 2 ^ 64) (mode : Mode) (arguments : List Str) :
    main parse argv = .ok (.runs mode arguments) ↔ AsksForMode argv (parse argv) mode arguments := by
  unfold AsksForMode
  by_cases hh : "-h".toList ∈ argv
  · rw [main_h hh]
    exact ⟨fun h => (by cases h), fun h => absurd hh h.1⟩
  · rw [main_positional hh]
    cases hp : parse argv with
    | none => simp
    | some l =>
      match l with
      | [] => simp
      | [_] => simp
      | p :: name :: rest =>
        have hl : rest.length + 2 ≤ sizeMax := by
          have := hfit _ hp
          simp only [List.length_cons] at this
          unfold sizeMax
          omega
        dsimp only
        rw [if_pos hl]
        by_cases hm : ∃ m, name = modeName m
        · obtain ⟨m, rfl⟩ := hm
          rw [choose_mode]
          constructor
          · intro h
            split at h
            · cases h
            · rename_i hn
              rw [Outcome.ok.injEq, Call.runs.injEq] at h
              obtain ⟨rfl, rfl⟩ := h
              exact ⟨hh, p, rfl, fun ha => Decidable.not_not.1 fun hm => hn ⟨ha, hm⟩⟩
          · rintro ⟨_, p', he, ha⟩
            rw [Option.some.injEq, List.cons.injEq, List.cons.injEq] at he
            obtain ⟨_, he, rfl⟩ := he
            have := modeName_inj he
            subst this
            rw [if_neg (fun h => h.2 (ha h.1))]
        · constructor
          · intro h
            by_cases hn : name = "help".toList
            · rw [hn, choose_help] at h; cases h
            · rw [choose_other rest (fun m e => hm ⟨m, e⟩) hn] at h; cases h
          · rintro ⟨_, p', he, _⟩
            rw [Option.some.injEq, List.cons.injEq, List.cons.injEq] at he
            exact absurd ⟨_, he.2.1⟩ hm

/-- C285.  It prints its usage and exits with status 0 exactly if it is asked for it; any other call
that does not run a mode, and is not ended by the flags, prints the usage and exits with status 1. -/
theorem C285_usage (parse : List Str → Option (List Str)) (argv : List Str)
    (hfit : ∀ l, parse argv = some l → l.length < 2 ^ 64) :
    (main parse argv = .ok (.usage 0) ↔ AsksForUsage argv (parse argv)) ∧
    (main parse argv = .ok .flags ↔ "-h".toList ∉ argv ∧ parse argv = none) ∧
    (main parse argv = .ok (.usage 1) ↔ ¬ AsksForUsage argv (parse argv) ∧ parse argv ≠ none ∧
      ¬ ∃ mode arguments, AsksForMode argv (parse argv) mode arguments) := by
  have hruns := C285_runs parse argv hfit
  have h0 : (main parse argv = .ok (.usage 0) ↔ AsksForUsage argv (parse argv)) ∧
      (main parse argv = .ok .flags ↔ "-h".toList ∉ argv ∧ parse argv = none) ∧
      ∀ s, main parse argv = .ok (.usage s) → s = 0 ∨ s = 1 := by
    unfold AsksForUsage
    by_cases hh : "-h".toList ∈ argv
    · rw [main_h hh]
      refine ⟨⟨fun _ => Or.inl hh, fun _ => rfl⟩, ⟨fun h => (by cases h), fun h => absurd hh h.1⟩, ?_⟩
      intro s hs
      cases hs
      exact Or.inl rfl
    · rw [main_positional hh]
      cases hp : parse argv with
      | none =>
        refine ⟨⟨fun h => (by cases h), ?_⟩, ⟨fun _ => ⟨hh, rfl⟩, fun _ => rfl⟩, fun s h => (by cases h)⟩
        rintro (h | ⟨_, _, h⟩)
        · exact absurd h hh
        · cases h
      | some l =>
        have hshort : ∀ l' : List Str, (∀ p name rest, l' ≠ p :: name :: rest) →
            ((Outcome.ok (Call.usage 1) = .ok (.usage 0) ↔ "-h".toList ∈ argv ∨ ∃ program rest,
              some l' = some (program :: "help".toList :: rest)) ∧
            (Outcome.ok (Call.usage 1) = .ok .flags ↔ "-h".toList ∉ argv ∧ some l' = none) ∧
            ∀ s, Outcome.ok (Call.usage 1) = .ok (.usage s) → s = 0 ∨ s = 1) := by
          intro l' hl'
          refine ⟨⟨fun h => (by cases h), ?_⟩, ⟨fun h => (by cases h), fun h => (by cases h.2)⟩, ?_⟩
          · rintro (h | ⟨p, r, h⟩)
            · exact absurd h hh
            · exact absurd (Option.some.inj h) (hl' _ _ _)
          · intro s h
            cases h
            exact Or.inr rfl
        match l with
        | [] => exact hshort [] (by simp)
        | [x] => exact hshort [x] (by simp)
        | p :: name :: rest =>
          have hl : rest.length + 2 ≤ sizeMax := by
            have := hfit _ hp
            simp only [List.length_cons] at this
            unfold sizeMax
            omega
          dsimp only
          rw [if_pos hl]
          by_cases hn : name = "help".toList
          · subst hn
            rw [choose_help]
            refine ⟨⟨fun _ => Or.inr ⟨_, _, rfl⟩, fun _ => rfl⟩, ⟨fun h => (by cases h), fun h => (by cases h.2)⟩, ?_⟩
            intro s h
            cases h
            exact Or.inl rfl
          · have hno : ¬ ("-h".toList ∈ argv ∨ ∃ program rest',
                some (p :: name :: rest) = some (program :: "help".toList :: rest')) := by
              rintro (h | ⟨p', r, h⟩)
              · exact absurd h hh
              · rw [Option.some.injEq, List.cons.injEq, List.cons.injEq] at h
                exact hn h.2.1
            by_cases hm : ∃ m, name = modeName m
            · obtain ⟨m, rfl⟩ := hm
              rw [choose_mode]
              split
              · refine ⟨⟨fun h => (by cases h), fun h => absurd h hno⟩,
                  ⟨fun h => (by cases h), fun h => (by cases h.2)⟩, ?_⟩
                intro s h
                cases h
                exact Or.inr rfl
              · exact ⟨⟨fun h => (by cases h), fun h => absurd h hno⟩,
                  ⟨fun h => (by cases h), fun h => (by cases h.2)⟩, fun s h => (by cases h)⟩
            · rw [choose_other rest (fun m e => hm ⟨m, e⟩) hn]
              refine ⟨⟨fun h => (by cases h), fun h => absurd h hno⟩,
                ⟨fun h => (by cases h), fun h => (by cases h.2)⟩, ?_⟩
              intro s h
              cases h
              exact Or.inr rfl
  obtain ⟨hu, hf, hs⟩ := h0
  refine ⟨hu, hf, ?_⟩
  constructor
  · intro h
    refine ⟨?_, ?_, ?_⟩
    · intro ha
      rw [hu.2 ha] at h
      cases h
    · intro hp
      by_cases hh : "-h".toList ∈ argv
      · rw [main_h hh] at h; cases h
      · rw [hf.2 ⟨hh, hp⟩] at h; cases h
    · rintro ⟨m, as, hm⟩
      rw [(hruns m as).2 hm] at h
      cases h
  · rintro ⟨h1, h2, h3⟩
    obtain ⟨o, hm⟩ : ∃ o, main parse argv = .ok o := by
      by_cases hh : "-h".toList ∈ argv
      · exact ⟨_, main_h hh⟩
      · exact ⟨_, main_positional hh⟩
    cases o with
    | flags => exact absurd (hf.1 hm).2 h2
    | runs m as => exact absurd ⟨m, as, (hruns m as).1 hm⟩ h3
    | usage s =>
      rcases hs s hm with rfl | rfl
      · exact absurd (hu.1 hm) h1
      · exact hm

/-- A parser that removes the arguments beginning with two dashes. -/
def dashes (argv : List Str) : Option (List Str) := some (argv.filter fun a => !"--".toList.isPrefixOf a)

example : main dashes ["distbench".toList, "--port=1".toList, "node_manager".toList, "node3".toList] =
    .ok (.runs .nodeManager ["node3".toList]) :=
  (C285_runs _ _ (by intro l h; cases h; decide) _ _).2
    ⟨by decide, "distbench".toList, by decide, fun _ => rfl⟩

example : main dashes ["distbench".toList, "run_tests".toList, "x".toList] = .ok (.usage 1) := by decide

example : main dashes ["distbench".toList, "run_tests".toList, "-h".toList] = .ok (.usage 0) :=
  (C285_usage _ _ (by intro l h; cases h; decide)).1.2 (Or.inl (by decide))

/-! ### test_preview -/

theorem canonicalTests_ok : ∀ {tests canonical : List PreviewTest}, canonicalTests tests = .ok canonical →
    ∀ {sent}, onSingleNode canonical = some sent → AllPreviewSent tests sent := by
  intro tests
  induction tests with
  | nil =>
    intro canonical h sent hs
    rw [canonicalTests, Outcome.ok.injEq] at h
    subst h
    rw [onSingleNode, Option.some.injEq] at hs
    subst hs
    exact .nil
  | cons test rest ih =>
    intro canonical h sent hs
    rw [canonicalTests] at h
    cases hc : Tables.canonicalDescription test.config with
    | error m => rw [hc] at h; cases h
    | ub => rw [hc] at h; cases h
    | crash => rw [hc] at h; cases h
    | ok config =>
      rw [hc] at h
      cases hr : canonicalTests rest with
      | error m => rw [hr] at h; cases h
      | ub => rw [hr] at h; cases h
      | crash => rw [hr] at h; cases h
      | ok tests =>
        rw [hr] at h
        replace h : Outcome.ok ({ test with config := config } :: tests) = .ok canonical := h
        rw [Outcome.ok.injEq] at h
        subst h
        rw [onSingleNode] at hs
        split at hs
        · rename_i instances tests' hi ht
          rw [Option.some.injEq] at hs
          subst hs
          exact .cons ⟨hc, ⟨instances, hi, rfl⟩, rfl, rfl⟩ (ih hr ht)
        · cases hs

/-- There are at least as many instances as the counts add up to. -/
theorem instances_count {services : List ServiceSpec} {instances : List Str}
    (h : problemServices services = some instances) :
    (services.map ServiceSpec.getCount).sum ≤ (instances.length : Int) := by
  unfold problemServices allServiceInstances at h
  rw [Option.map_eq_some_iff] at h
  obtain ⟨names, hn, rfl⟩ := h
  induction services generalizing names with
  | nil => simp
  | cons s rest ih =>
    rw [List.mapM_cons] at hn
    cases h1 : serviceInstanceNames s with
    | none => rw [h1] at hn; cases hn
    | some l =>
      rw [h1] at hn
      cases h2 : rest.mapM serviceInstanceNames with
      | none => rw [h2] at hn; cases hn
      | some ls =>
        rw [h2] at hn
        replace hn : some (l :: ls) = some names := hn
        rw [Option.some.injEq] at hn
        subst hn
        have := ih ls h2
        have hl : l.length = s.getCount.toNat := by
          unfold serviceInstanceNames at h1
          have := (Dist.mapM_spec h1).1
          simpa using this
        rw [List.map_cons, List.sum_cons, List.flatten_cons, List.length_append, hl]
        push_cast
        omega

theorem allPreviewSent_length {tests sent : List PreviewTest} (h : AllPreviewSent tests sent) :
    sent.length = tests.length := by
  induction h with
  | nil => rfl
  | cons _ _ ih => rw [List.length_cons, List.length_cons, ih]

/-- What is known when `test_preview` calls its sequencer. -/
theorem previewCall_some {Settings : Type} {p : Preview Settings} {sent : List PreviewTest}
    {settings : Settings} {deadline : Int} (h : previewCall p = .ok (some (sent, settings, deadline))) :
    ∃ tests, parseFile p.parsers p.infile = some (tests, settings) ∧ AllPreviewSent tests sent ∧
      deadline = 3000 ∧ (nodesFor sent ≠ 0 → p.starts (nodesFor sent) = true) := by
  unfold previewCall at h
  split at h
  · cases h
  · rename_i tests settings' hp
    split at h
    · cases h
    · cases h
    · cases h
    · rename_i canonical hc
      split at h
      · cases h
      · rename_i sent' hs
        split at h
        · cases h
        · rename_i hn
          rw [Outcome.ok.injEq, Option.some.injEq, Prod.mk.injEq, Prod.mk.injEq] at h
          obtain ⟨rfl, rfl, rfl⟩ := h
          refine ⟨tests, hp, canonicalTests_ok hc hs, rfl, ?_⟩
          intro hz
          cases hst : p.starts (nodesFor sent') with
          | true => rfl
          | false => exact absurd ⟨hz, hst⟩ hn

theorem showResults_shown {Settings : Type} {p : Preview Settings} {results : List TestResult}
    (h : (showResults p results).status = 0) : PreviewShown p results (showResults p results) := by
  unfold PreviewShown
  unfold showResults at h ⊢
  by_cases ho : p.outfile = []
  · rw [if_pos (by simp [ho])]
    exact ⟨fun _ => ⟨rfl, rfl⟩, fun hne => absurd ho hne⟩
  · rw [if_neg (by simpa using ho)] at h ⊢
    refine ⟨fun he => absurd he ho, fun _ => ⟨rfl, ?_⟩⟩
    dsimp only at h ⊢
    have hc : p.disk.canOpen = true := by
      cases hc : p.disk.canOpen with
      | true => rfl
      | false => simp [saveBinary, saveText, hc] at h
    refine ⟨(previewForm p results).take p.disk.room, ?_, List.take_prefix _ _,
      fun hl => List.take_of_length_le hl⟩
    unfold previewForm saveBinary saveText
    rw [if_pos hc, if_pos hc]
    split <;> rfl

/-- Missing from the full property: that all of the results are in the file even if the disk is
full, see `C286_false`.  If test_preview exits with status 0, it could read its input, every test in
it was sent in canonical form with all its instances on node0, the sequencer reported all of them, in
order and as successful, and the results are shown, in the file if there is room for them. -/
theorem C286_status_partial {Settings : Type} (p : Preview Settings)
    (call : List PreviewTest → Settings → Sequencer.Call) (hseq : PreviewAnswers call p.answer)
    {e : PreviewExit} (h : mainTestPreview p = .ok e) (h0 : e.status = 0) :
    ∃ tests settings sent results, parseFile p.parsers p.infile = some (tests, settings) ∧
      AllPreviewSent tests sent ∧ ReportsFirst (call sent settings) tests.length results ∧
      PreviewShown p results e := by
  unfold mainTestPreview at h
  cases hc : previewCall p with
  | error m => rw [hc] at h; cases h
  | ub => rw [hc] at h; cases h
  | crash => rw [hc] at h; cases h
  | ok v =>
    rw [hc] at h
    cases v with
    | none =>
      simp only [Outcome.bind, Outcome.ok.injEq] at h
      subst h
      cases h0
    | some v =>
      obtain ⟨sent, settings, deadline⟩ := v
      obtain ⟨tests, hp, hsent, rfl, _⟩ := previewCall_some hc
      simp only [Outcome.bind] at h
      cases ha : p.answer sent settings 3000 with
      | error m =>
        rw [ha] at h
        simp only [Outcome.ok.injEq] at h
        subst h
        cases h0
      | ok results =>
        rw [ha] at h
        simp only [Outcome.ok.injEq] at h
        subst h
        obtain ⟨hn, prog, s, i, c, e, h1, h2, h3, h4, h5, h6⟩ := hseq sent settings 3000 results ha
        refine ⟨tests, settings, sent, results, hp, hsent, ?_, showResults_shown h0⟩
        have hends := C45_answer h1 h2 h3 h4
        rw [← allPreviewSent_length hsent, ← hn]
        cases hends with
        | ok hr _ => rw [← h6]; exact hr
        | tooBig => cases h5
        | failed => cases h5
        | cancelled => cases h5

/-- C286.  And if all goes well, test_preview exits with status 0 and shows the results. -/
theorem C286_success {Settings : Type} (p : Preview Settings) {sent : List PreviewTest}
    {settings : Settings} {deadline : Int} {results : List TestResult}
    (hc : previewCall p = .ok (some (sent, settings, deadline)))
    (ha : p.answer sent settings deadline = .ok results) (hd : p.disk.canOpen = true)
    (hroom : (previewForm p results).length ≤ p.disk.room) :
    ∃ e, mainTestPreview p = .ok e ∧ e.status = 0 ∧
      (p.outfile = [] → e.printed = some (p.asText results)) ∧
      (p.outfile ≠ [] → e.output = some (previewForm p results)) := by
  have hst : (showResults p results).status = 0 := by
    unfold showResults
    split
    · rfl
    · have hwp : ∀ n, writtenByPrint n ≤ n := by
        intro n
        unfold writtenByPrint
        omega
      unfold previewForm at hroom
      cases hb : p.binaryOutput with
      | true =>
        rw [hb] at hroom
        simp only [if_true] at hroom ⊢
        unfold saveBinary
        rw [if_pos hd]
        dsimp only
        rw [if_pos (by simp only [decide_eq_true_eq]; omega)]
      | false =>
        rw [hb] at hroom
        simp only [Bool.false_eq_true, if_false] at hroom ⊢
        unfold saveText
        rw [if_pos hd]
        dsimp only
        rw [if_pos (by simp only [decide_eq_true_eq]; exact Nat.le_trans (hwp _) hroom)]
  refine ⟨showResults p results, ?_, hst, ?_, ?_⟩
  · unfold mainTestPreview
    rw [hc]
    simp only [Outcome.bind, ha]
  · intro ho
    exact ((showResults_shown hst).1 ho).1
  · intro ho
    obtain ⟨_, c, h1, _, h2⟩ := (showResults_shown hst).2 ho
    rw [h1, h2 hroom]

/-- But results in text form of up to 8192 bytes are reported as saved whatever the room on the
disk. -/
theorem C286_false {Settings : Type} (p : Preview Settings) {sent : List PreviewTest}
    {settings : Settings} {deadline : Int} {results : List TestResult}
    (hc : previewCall p = .ok (some (sent, settings, deadline)))
    (ha : p.answer sent settings deadline = .ok results) (hd : p.disk.canOpen = true)
    (ho : p.outfile ≠ []) (hb : p.binaryOutput = false) (hsmall : (p.asText results).length ≤ 8192) :
    mainTestPreview p = .ok { status := 0, output := some ((p.asText results).take p.disk.room) } := by
  unfold mainTestPreview
  rw [hc]
  simp only [Outcome.bind, ha]
  unfold showResults
  rw [if_neg (by simpa using ho), hb]
  simp only [Bool.false_eq_true, if_false]
  unfold saveText
  rw [if_pos hd]
  dsimp only
  have h0 : writtenByPrint (p.asText results).length = 0 := by
    unfold writtenByPrint
    omega
  rw [h0, if_pos (by simp)]

/-- C286.  A preview starts at most one node, whatever the tests. -/
theorem C286_one_node {Settings : Type} (p : Preview Settings) {sent : List PreviewTest}
    {settings : Settings} {deadline : Int}
    (h : previewCall p = .ok (some (sent, settings, deadline))) :
    nodesFor sent = 0 ∨ nodesFor sent = 1 ∧ p.starts 1 = true := by
  obtain ⟨tests, hp, hsent, _, hst⟩ := previewCall_some h
  have hle : ∀ t ∈ sent, requiredFor t ≤ 1 := by
    clear hst h hp
    induction hsent with
    | nil => intro t ht; cases ht
    | cons h1 h2 ih =>
      intro t ht
      rcases List.mem_cons.1 ht with rfl | ht
      · obtain ⟨_, ⟨instances, hi, hb⟩, _⟩ := h1
        unfold requiredFor
        rw [hb]
        have := instances_count hi
        simp only [List.map_cons, List.map_nil, List.sum_cons, List.sum_nil, List.length_cons, List.length_nil]
        omega
      · exact ih t ht
  have key : ∀ (l : List PreviewTest) (m : Int), (m = 0 ∨ m = 1) → (∀ t ∈ l, requiredFor t ≤ 1) →
      l.foldl (fun m t => if requiredFor t > m then requiredFor t else m) m = 0 ∨
      l.foldl (fun m t => if requiredFor t > m then requiredFor t else m) m = 1 := by
    intro l
    induction l with
    | nil => intro m hm _; exact hm
    | cons t ts ih =>
      intro m hm hl
      rw [List.foldl_cons]
      refine ih _ ?_ (fun t ht => hl t (List.mem_cons_of_mem _ ht))
      have := hl t (List.mem_cons_self ..)
      split <;> omega
  rcases key sent 0 (Or.inl rfl) hle with h0 | h0
  · exact Or.inl h0
  · right
    have : nodesFor sent = 1 := h0
    rw [this] at hst
    exact ⟨this, hst (by decide)⟩

/-- A preview of a file with one test, of a service with two instances. -/
def onePreview (room : Nat) (attributes : Map Str) : Preview Unit where
  parsers :=
    { test := fun _ => none, settings := fun _ => some ()
      text := fun _ => some ([{ config := { services := [{ name := "a".toList, count := some 2 }] }
                                bundles := [("node3".toList, ["a/1".toList])]
                                attributes := attributes }], ()) }
  infile := some (bytesOf "tests{}")
  starts := fun n => n == 1
  answer := fun sent _ _ => if sent.length = 1 then .ok [oneResult] else .error []
  outfile := "out".toList
  binaryOutput := false
  disk := { canOpen := true, room := room }
  held := 0
  asText := fun _ => bytesOf "test_results{}"
  asBinary := fun _ => [10, 0]

/-- What its sequencer is asked to do: both instances are on node0, and the bundle of the file is
gone. -/
theorem onePreview_call (room : Nat) (attributes : Map Str) : ∃ sent,
    previewCall (onePreview room attributes) = .ok (some ([sent], (), 3000)) ∧
    sent.bundles = [("node0".toList, ["a/0".toList, "a/1".toList])] ∧ sent.attributes = attributes :=
  ⟨_, by rfl, by show [("node0".toList, _)] = _; decide +kernel, by rfl⟩

theorem onePreview_answers (room : Nat) (attributes : Map Str) :
    PreviewAnswers (fun sent _ => goodCall (sent.map (·.attributes))) (onePreview room attributes).answer := by
  intro sent settings deadline results h
  obtain ⟨h1, h2⟩ := goodSequencer (sent.map (·.attributes)) deadline results (by
    unfold goodAnswer
    rw [List.length_map]
    exact h)
  rw [List.length_map] at h1
  exact ⟨h1, h2⟩

example : ∃ e, mainTestPreview (onePreview 100 []) = .ok e ∧ e.status = 0 ∧
    e.output = some (bytesOf "test_results{}") := by
  obtain ⟨sent, hc, _⟩ := onePreview_call 100 []
  obtain ⟨e, h1, h2, _, h3⟩ := C286_success (onePreview 100 []) hc rfl rfl (by decide)
  exact ⟨e, h1, h2, h3 (by decide)⟩

example : ∃ tests settings sent results,
    parseFile (onePreview 100 []).parsers (onePreview 100 []).infile = some (tests, settings) ∧
      AllPreviewSent tests sent ∧ ReportsFirst (goodCall (sent.map (·.attributes))) tests.length results ∧
      PreviewShown (onePreview 100 []) results { status := 0, output := some (bytesOf "test_results{}") } := by
  obtain ⟨sent, hc, _⟩ := onePreview_call 100 []
  exact C286_status_partial (onePreview 100 []) _ (onePreview_answers 100 [])
    (C286_false (onePreview 100 []) hc rfl rfl (by decide) rfl (by decide)) rfl

/-- With room for three bytes the status is the same. -/
example : mainTestPreview (onePreview 3 []) = .ok { status := 0, output := some (bytesOf "tes") } := by
  obtain ⟨sent, hc, _⟩ := onePreview_call 3 []
  exact C286_false (onePreview 3 []) hc rfl rfl (by decide) rfl (by decide)

example : nodesFor [{ config := { services := [{ name := "a".toList, count := some 2 }] }
                      bundles := [("node0".toList, ["a/0".toList, "a/1".toList])] }] = 1 := by decide

/-! ### the time a preview waits -/

/-- Missing from the full property: tests without a timeout, and tests that may take more than 3000
seconds in all, see `C287_negation`.  If all tests have a timeout and these add up to at most 3000
seconds, a preview waits as long as the tests may take. -/
theorem C287_waits_partial {Settings : Type} (p : Preview Settings) {tests sent : List PreviewTest}
    {settings settings' : Settings} {deadline : Int}
    (hp : parseFile p.parsers p.infile = some (tests, settings'))
    (h : previewCall p = .ok (some (sent, settings, deadline))) {vs : List Int}
    (hg : AllGiven (tests.map (·.attributes)) vs) (hsum : vs.sum ≤ 3000) :
    MayTake sent vs.sum ∧ vs.sum ≤ deadline := by
  obtain ⟨tests', hp', hsent, rfl, hst⟩ := previewCall_some h
  rw [hp, Option.some.injEq, Prod.mk.injEq] at hp'
  obtain ⟨rfl, _⟩ := hp'
  refine ⟨?_, hsum⟩
  clear h hp hst
  induction hsent generalizing vs with
  | nil =>
    cases hg
    exact .nil
  | cons h1 h2 ih =>
    cases hg with
    | @cons _ _ v vs hv hpos hrest =>
      have h0 := (Timeout.allGiven_sum hrest).1
      rw [List.sum_cons] at hsum ⊢
      refine .cons ?_ (ih hrest (by omega))
      rw [h1.2.2.2]
      unfold Timeout.testDeadline
      rw [Timeout.attribute_given hv]
      show Except.ok (toInt32 v) = _
      rw [Timeout.toInt32_fits (by omega) (by omega)]

/-- A test without a timeout may take an hour, but its preview waits for 3000 seconds only; and there
are sequences of which each test may take that long, and all of them any multiple of it. -/
theorem C287_negation :
    ¬ ∀ (p : Preview Unit) (sent : List PreviewTest) (deadline total : Int),
      previewCall p = .ok (some (sent, (), deadline)) → MayTake sent total → total ≤ deadline := by
  intro h
  obtain ⟨sent, hc, _, ha⟩ := onePreview_call 100 []
  have := h _ [sent] 3000 (3600 + 0) hc (.cons (by rw [ha]; rfl) .nil)
  omega

example : ∃ sent, previewCall (onePreview 100 [("test_timeout".toList, "200".toList)]) =
      .ok (some ([sent], (), 3000)) ∧ MayTake [sent] 200 := by
  obtain ⟨sent, hc, _⟩ := onePreview_call 100 [("test_timeout".toList, "200".toList)]
  have hv : TimeoutGiven [("test_timeout".toList, "200".toList)] 200 :=
    ⟨_, rfl, (simpleAtoi64_iff _ _).1 (by decide +kernel)⟩
  exact ⟨sent, hc, (C287_waits_partial (onePreview 100 _)
    (tests := [{ config := { services := [{ name := "a".toList, count := some 2 }] }
                 bundles := [("node3".toList, ["a/1".toList])]
                 attributes := [("test_timeout".toList, "200".toList)] }]) (by rfl) hc
    (vs := [200]) (.cons hv (by decide) .nil) (by decide)).1⟩

/-! ### the nodes of a test sequencer -/

theorem local_history {count : Int} {places : Nat → Cli.Place} {others failures : Bool} {s : Registry}
    {answers : List (Option (Nat × Str))} (h : Local count places others failures s answers) :
    ∃ hist, History s hist ∧ ∀ (i id : Nat) (name : Str), answers[i]? = some (some (id, name)) →
      Accepted hist (Cli.registrationOf (places i) i []) id name := by
  induction h with
  | start _ => exact ⟨[], .start, by simp⟩
  | other _ _ hr ih =>
    obtain ⟨hist, hh, ha⟩ := ih
    refine ⟨_, hh.step hr, fun i id name hi => ?_⟩
    unfold Accepted
    exact List.mem_append_left _ (ha i id name hi)
  | @node s s' answers a _ _ hr ih =>
    obtain ⟨hist, hh, ha⟩ := ih
    refine ⟨_, hh.step hr, fun i id name hi => ?_⟩
    unfold Accepted
    rw [List.getElem?_append] at hi
    split at hi
    · exact List.mem_append_left _ (ha i id name hi)
    · rw [List.getElem?_singleton] at hi
      split at hi
      · rw [Option.some.injEq] at hi
        have : i = answers.length := by omega
        subst this
        rw [hi]
        simp
      · cases hi
  | failed _ _ _ ih =>
    obtain ⟨hist, hh, ha⟩ := ih
    refine ⟨hist, hh, fun i id name hi => ?_⟩
    rw [List.getElem?_append] at hi
    split at hi
    · exact ha i id name hi
    · rw [List.getElem?_singleton] at hi
      split at hi <;> cases hi

/-- C288.  A node of the sequencer's own that takes part is node `i` if it is the `i`-th, whatever
other nodes register meanwhile. -/
theorem C288_names {count : Int} {places : Nat → Cli.Place} {others failures : Bool} {s : Registry}
    {answers : List (Option (Nat × Str))} (h : Local count places others failures s answers)
    {i id : Nat} {name : Str} (hi : answers[i]? = some (some (id, name))) :
    id = i ∧ name = "node".toList ++ (toString i).toList ∧ RegisteredAs s name i := by
  obtain ⟨hist, hh, ha⟩ := local_history h
  have hacc := ha i id name hi
  have hid : (i : Int) = id := Cli.accepted_preassigned hh hacc (by show (0 : Int) ≤ (i : Int); omega)
  have : id = i := by omega
  subst this
  exact ⟨rfl, (C43_unique hh hacc hacc).2.2, (C43_table hh name id).1.2 ⟨_, hacc⟩⟩

theorem local_all {count : Int} {places : Nat → Cli.Place} {s : Registry}
    {answers : List (Option (Nat × Str))} (h : Local count places false false s answers)
    (hw : ∀ i, ¬ MalformedNode (Cli.registrationOf (places i) i [])) :
    ∃ hist, History s hist ∧ (∀ r a, (r, a) ∈ hist → ∃ i, i < answers.length ∧
        r = Cli.registrationOf (places i) i [] ∧ a = some (i, "node".toList ++ (toString i).toList)) ∧
      ∀ i, i < answers.length → answers[i]? = some (some (i, "node".toList ++ (toString i).toList)) := by
  induction h with
  | start _ => exact ⟨[], .start, by simp, by simp⟩
  | other h _ _ _ => cases h
  | failed h _ _ _ => cases h
  | @node s s' answers a hl hc hr ih =>
    obtain ⟨hist, hh, hall, hans⟩ := ih
    have hfresh : ¬ ∃ id n, Accepted hist (Cli.registrationOf (places answers.length) answers.length []) id n := by
      rintro ⟨id, n, hacc⟩
      obtain ⟨i, hi, he, _⟩ := hall _ _ hacc
      have : ((answers.length : Nat) : Int) = (i : Int) := congrArg Registration.preassigned he
      omega
    have ha : a = some (answers.length, "node".toList ++ (toString answers.length).toList) := by
      cases a with
      | none =>
        rcases (C43_rejected hh hr).1.1 rfl with hm | ⟨_, id, r', n, hp, hacc⟩
        · exact absurd hm (hw _)
        · obtain ⟨i, hi, _, he⟩ := hall _ _ hacc
          have h1 : ((answers.length : Nat) : Int) = (id : Int) := hp
          rw [Option.some.injEq, Prod.mk.injEq] at he
          omega
      | some a =>
        obtain ⟨id, n⟩ := a
        have h1 : ((answers.length : Nat) : Int) = (id : Int) :=
          ((C43_answer hh hr).2 hfresh).1 (by show (0 : Int) ≤ ((answers.length : Nat) : Int); omega)
        have h2 : answers.length = id := by omega
        have hacc : Accepted (hist ++ [(Cli.registrationOf (places answers.length) answers.length [],
            some (id, n))]) (Cli.registrationOf (places answers.length) answers.length []) id n := by
          simp [Accepted]
        rw [(C43_unique (hh.step hr) hacc hacc).2.2, h2]
    subst ha
    refine ⟨_, hh.step hr, ?_, ?_⟩
    · intro r a hm
      rw [List.mem_append, List.mem_singleton, Prod.mk.injEq] at hm
      rcases hm with hm | ⟨rfl, rfl⟩
      · obtain ⟨i, hi, he⟩ := hall r a hm
        exact ⟨i, by rw [List.length_append]; omega, he⟩
      · exact ⟨answers.length, by simp, rfl, rfl⟩
    · intro i hi
      rw [List.length_append, List.length_singleton] at hi
      rw [List.getElem?_append]
      split
      · rename_i hl
        exact hans i hl
      · have : i = answers.length := by omega
        subst this
        simp

/-- Missing from the full property: other nodes that register while the sequencer starts its own, see
`C288_taken_negation`, and negative numbers of nodes, see `C288_negative_negation`.  A test sequencer
that is started with `--local_nodes=n`, all of whose nodes can start and to which no other node
registers, has exactly the nodes node0 to node(n-1). -/
theorem C288_all_partial {n : Nat} {places : Nat → Cli.Place} {s : Registry}
    {answers : List (Option (Nat × Str))} (h : Local n places false false s answers)
    (hw : ∀ i, ¬ MalformedNode (Cli.registrationOf (places i) i [])) (hdone : answers.length = n) :
    LocalNodes s n := by
  obtain ⟨hist, hh, hall, hans⟩ := local_all h hw
  intro id name
  rw [(C43_table hh name id).1]
  constructor
  · rintro ⟨r, hr⟩
    obtain ⟨i, hi, _, he⟩ := hall _ _ hr
    rw [Option.some.injEq, Prod.mk.injEq] at he
    obtain ⟨rfl, rfl⟩ := he
    exact ⟨by omega, rfl⟩
  · rintro ⟨hi, rfl⟩
    have := (C288_names h (hans id (by omega))).2.2
    rw [(C43_table hh _ id).1] at this
    exact this

/-- Its nodes can all be started one after the other: there is always a next step. -/
theorem local_exists (places : Nat → Cli.Place)
    (hw : ∀ i, ¬ MalformedNode (Cli.registrationOf (places i) i [])) (n : Nat) (hn : n < 2 ^ 31) :
    ∀ k, k ≤ n → ∃ s answers, Local n places false false s answers ∧ answers.length = k := by
  intro k
  induction k with
  | zero => intro _; exact ⟨_, _, .start (by unfold reserveNodes; rw [if_neg (by omega)]), rfl⟩
  | succ k ih =>
    intro hk
    obtain ⟨s, answers, hl, hlen⟩ := ih (by omega)
    have : ∃ s' a, register s (Cli.registrationOf (places answers.length) answers.length []) = .ok (s', a) := by
      unfold register
      split
      · exact ⟨_, _, rfl⟩
      · split
        · exact ⟨_, _, rfl⟩
        · dsimp only
          have hp : (Cli.registrationOf (places answers.length) answers.length []).preassigned = (answers.length : Int) := rfl
          rw [hp, if_pos (show ((answers.length : Nat) : Int) ≥ 0 by omega), Int.toNat_natCast]
          rw [if_neg (by omega)]
          split <;> split <;> exact ⟨_, _, rfl⟩
    obtain ⟨s', a, hr⟩ := this
    exact ⟨s', _, .node hl (by omega) hr, by rw [List.length_append, hlen]; rfl⟩

/-- Where the nodes of an example run. -/
def somePlace : Cli.Place :=
  { hostname := "h".toList, port := 5000, controlIp := none, serviceAddress := [] }

theorem somePlace_good (i : Nat) : ¬ MalformedNode (Cli.registrationOf somePlace i []) := by
  rintro (h | h | h)
  · exact absurd h (by decide : ¬ "h".toList = [])
  · exact absurd h (by decide : ¬ (5000 : Int) < 1)
  · exact absurd h (by decide : ¬ (65535 : Int) < 5000)

example (n : Nat) (hn : n < 2 ^ 31) : ∃ s answers, Local n (fun _ => somePlace) false false s answers ∧
    LocalNodes s n := by
  obtain ⟨s, answers, h, hl⟩ := local_exists (fun _ => somePlace) somePlace_good n hn n (Nat.le_refl _)
  exact ⟨s, answers, h, C288_all_partial h somePlace_good hl⟩

/-- A node elsewhere that asks for no particular id. -/
def otherNode : Registration := { hostname := "other".toList, controlPort := 6000 }

/-- The registry after it registered. -/
def takenRegistry : Registry where
  nodes := [{ nodeAlias := "node0".toList, pending := false, registration := otherNode }]
  byRegistration := [(otherNode, 0)]
  byAlias := [("node0".toList, 0)]

/-- Another node that registers first becomes node0; the sequencer's own node is refused, and the
sequencer goes on without it. -/
theorem C288_taken_negation :
    ∃ s, Local 1 (fun _ => somePlace) true false s [none] ∧
      ∃ slot, s.nodes = [slot] ∧ slot.nodeAlias = "node0".toList ∧ slot.registration.hostname = "other".toList := by
  have h1 : Local 1 (fun _ => somePlace) true false {} [] := .start (by decide)
  exact ⟨takenRegistry,
    .node (s := takenRegistry) (.other (s' := takenRegistry) (r := otherNode) (a := some (0, "node0".toList)) rfl h1 (by decide +kernel)) (by decide)
      (by decide +kernel), _, rfl, rfl, rfl⟩

/-- C288, the number of own nodes: there are never more than were asked for, whatever else registers. -/
theorem C288_count {count : Int} {places : Nat → Cli.Place} {others failures : Bool} {s : Registry}
    {answers : List (Option (Nat × Str))} (h : Local count places others failures s answers) :
    (answers.length : Int) ≤ count := by
  induction h with
  | start h0 =>
    unfold reserveNodes at h0
    split at h0
    · cases h0
    · rename_i hc; simp; omega
  | other _ _ _ ih => exact ih
  | node _ hlt _ _ => simp; omega
  | failed _ _ hlt _ => simp; omega

example : ¬ ∃ s, Local 1 (fun _ => somePlace) true true s [none, none] := by
  rintro ⟨s, h⟩
  exact absurd (C288_count h) (by decide)

/-- With a negative number of nodes the process aborts. -/
theorem C288_negative_negation {count : Int} (hc : count < 0) (places : Nat → Cli.Place)
    (others failures : Bool) : reserveNodes count = .crash ∧
    ¬ ∃ s answers, Local count places others failures s answers := by
  have h : reserveNodes count = .crash := by unfold reserveNodes; rw [if_pos hc]
  refine ⟨h, ?_⟩
  rintro ⟨s, answers, hl⟩
  induction hl with
  | start h0 => rw [h] at h0; cases h0
  | other _ _ _ ih => exact ih
  | node _ _ _ ih => exact ih
  | failed _ _ _ ih => exact ih

example : ¬ ∃ s answers, Local (-1) (fun _ => somePlace) true true s answers :=
  (C288_negative_negation (by decide) _ _ _).2

end Distbench.Modes
