import Verif.Lemmas.Workloads
import Verif.Props.BuilderLoad
import Verif.Props.Timeout

/-! Property theorems C289-C292: the scripts in workloads/. -/

namespace Distbench.Workloads
open Services Tables Builder Spec

theorem ok_then {α β : Type} (a : α) (f : α → Outcome β) : (Outcome.ok a >>= f) = f a := rfl

/-- How a script goes on when its options are in order. -/
theorem run_read {env : Str → Option Str} {s : Script} {arguments : List Str} {p : Params}
    (h : readOptions s (getopts (letters s) none arguments) (initial env s) = some p) :
    run s env arguments =
      if s = .clique ∧ ((p.find "NODE_COUNT".toList).bind testNumber).any (· ≤ 1) then .refused
      else
        match callOf s p with
        | .ok call => .runs call
        | _ => .failed := by
  unfold run
  rw [h]
  rfl

theorem run_given (env : Str → Option Str) {s : Script} {os : List (Char × Str)} {arguments rest : List Str}
    (h : GivesOptions s os arguments rest) (hr : NoMoreOptions rest) :
    ∃ p : Params, (∀ x ∈ targets s, x.1 ∈ (workloadOptions env s).map (·.1) →
        p.find x.2.toList = some (askedFor env s os x.1)) ∧
      run s env arguments =
        if s = .clique ∧ ((p.find "NODE_COUNT".toList).bind testNumber).any (· ≤ 1) then .refused
        else
          match callOf s p with
          | .ok call => .runs call
          | _ => .failed := by
  obtain ⟨p, h1, h2⟩ := options_read env h hr
  exact ⟨p, h2, run_read h1⟩

/-- A script with a time limit whose test can be read runs it. -/
theorem runs_limited {env : Str → Option Str} {s : Script} {os : List (Char × Str)} {p : Params} {seconds : Nat}
    {P : Call → Prop} {arguments : List Str} (hl : limits s = true) (hw : PlainWords env s os)
    (hrun : run s env arguments = match callOf s p with
      | .ok call => .runs call
      | _ => .failed)
    (h1 : p.find "SEQUENCER".toList = some (askedFor env s os 's'))
    (h2 : p.find "PROTOCOL_DRIVER".toList = some (askedFor env s os 'p'))
    (h3 : p.find "OUTPUT_FILE".toList = some (askedFor env s os 'o'))
    (h4 : p.find "TIME_SECONDS".toList = some (decimal seconds)) (hs : seconds * 1000000 < 2 ^ 31)
    (ht : ∃ cfg, testOf p s = .ok cfg ∧
      P ⟨askedFor env s os 's', some (askedFor env s os 'o'), some ((seconds : Int) + 100), askedFor env s os 'p', cfg⟩) :
    ∃ call, run s env arguments = .runs call ∧ P call := by
  obtain ⟨cfg, ht, hP⟩ := ht
  refine ⟨_, ?_, hP⟩
  have : callOf s p = .ok ⟨askedFor env s os 's', some (askedFor env s os 'o'), some ((seconds : Int) + 100),
      askedFor env s os 'p', cfg⟩ := by
    simp only [callOf, get_find h1, unquoted_ok hw.sequencer, get_find h2, quotedText_ok hw.protocol, ht, hl,
      get_find h3, limit_decimal h4 hs, ok_then, if_true]
  rw [hrun, this]

/-- A script without one whose test can be read runs it. -/
theorem runs_unlimited {env : Str → Option Str} {s : Script} {os : List (Char × Str)} {p : Params}
    {P : Call → Prop} {arguments : List Str} (hl : limits s = false) (hw : PlainWords env s os)
    (hrun : run s env arguments = match callOf s p with
      | .ok call => .runs call
      | _ => .failed)
    (h1 : p.find "SEQUENCER".toList = some (askedFor env s os 's'))
    (h2 : p.find "PROTOCOL_DRIVER".toList = some (askedFor env s os 'p'))
    (ht : ∃ cfg, testOf p s = .ok cfg ∧ P ⟨askedFor env s os 's', none, none, askedFor env s os 'p', cfg⟩) :
    ∃ call, run s env arguments = .runs call ∧ P call := by
  obtain ⟨cfg, ht, hP⟩ := ht
  refine ⟨_, ?_, hP⟩
  have : callOf s p = .ok ⟨askedFor env s os 's', none, none, askedFor env s os 'p', cfg⟩ := by
    simp only [callOf, get_find h1, unquoted_ok hw.sequencer, get_find h2, quotedText_ok hw.protocol, ht, hl,
      ok_then]
    rfl
  rw [hrun, this]

/-! ### C289: the load that was asked for -/

/-- C289 for clique_rpc_pattern.sh, for durations up to 2147 seconds. -/
theorem C289_clique_partial (env : Str → Option Str) {os : List (Char × Str)} {arguments rest : List Str}
    (h : GivesOptions .clique os arguments rest) (hr : NoMoreOptions rest) (hw : PlainWords env .clique os)
    {nodes seconds : Nat} {mode : Str} (h1 : askedFor env .clique os 'n' = decimal nodes)
    (h2 : askedFor env .clique os 't' = decimal seconds) (h3 : askedFor env .clique os 'm' = mode)
    (hm : Quotable mode) (hn : 2 ≤ nodes) (hn' : nodes < 2 ^ 31) (hs : seconds * 1000000 < 2 ^ 31) :
    ∃ call, run .clique env arguments = .runs call ∧ RunAsAsked env .clique os call ∧
      call.limit = some (seconds + 100) ∧
      serviceCounts call.test = [("clique".toList, some (nodes : Int))] ∧
      rpcEdges call.test = [("clique_query".toList, ["clique".toList], "clique".toList, "all".toList)] ∧
      rpcSizes call.test = [("clique_query".toList, some 1024, some 1024)] ∧
      listsOf call.test = [("clique".toList, ["clique_queries".toList]), ("clique_query".toList, [])] ∧
      actionsOf call.test = [("clique_queries".toList, .rpc "clique_query".toList, [])] ∧
      loopOf call.test "clique_queries" = some {
        maxDurationUs := some (seconds * 1000000), openLoopIntervalNs := some 16000000, openLoopIntervalDistribution := mode } := by
  obtain ⟨p, hp, hrun⟩ := run_given env h hr
  have f1 := hp ('n', "NODE_COUNT") (by decide) (by simp [workloadOptions])
  have f2 := hp ('t', "TIME_SECONDS") (by decide) (by simp [workloadOptions])
  have f3 := hp ('m', "SYNCHRONIZATION_MODE") (by decide) (by simp [workloadOptions])
  dsimp only at f1 f2 f3
  rw [h1] at f1
  rw [h2] at f2
  rw [h3] at f3
  rw [f1, Option.bind_some, testNumber_decimal (by omega), if_neg (by simp; omega)] at hrun
  refine runs_limited rfl hw hrun (hp ('s', "SEQUENCER") (by decide) (by simp [workloadOptions]))
    (hp ('p', "PROTOCOL_DRIVER") (by decide) (by simp [workloadOptions]))
    (hp ('o', "OUTPUT_FILE") (by decide) (by simp [workloadOptions])) f2 hs ?_
  refine ⟨_, (by
    simp only [testOf, cliqueTest, number_decimal f1 hn', duration_decimal f2 hs, get_find f3, quotedText_ok hm, ok_then]
    rfl), ?_⟩
  exact ⟨⟨rfl, rfl, fun _ => rfl⟩, rfl, rfl, rfl, rfl, rfl, rfl, rfl⟩

/-- C289 for multi_level_rpc_pattern.sh, for durations up to 2147 seconds. -/
theorem C289_multi_level_partial (env : Str → Option Str) {os : List (Char × Str)} {arguments rest : List Str}
    (h : GivesOptions .multiLevel os arguments rest) (hr : NoMoreOptions rest) (hw : PlainWords env .multiLevel os)
    {roots leaves seconds qps : Nat} (h1 : askedFor env .multiLevel os 'r' = decimal roots)
    (h2 : askedFor env .multiLevel os 'l' = decimal leaves) (h3 : askedFor env .multiLevel os 't' = decimal seconds)
    (h4 : askedFor env .multiLevel os 'q' = decimal qps) (hn : roots < 2 ^ 31) (hn' : leaves < 2 ^ 31)
    (hs : seconds * 1000000 < 2 ^ 31) (hq : 0 < qps) (hq' : qps < 2 ^ 63) :
    ∃ call, run .multiLevel env arguments = .runs call ∧ RunAsAsked env .multiLevel os call ∧
      call.limit = some (seconds + 100) ∧
      serviceCounts call.test = [("load_balancer".toList, some 1), ("root".toList, some (roots : Int)),
        ("leaf".toList, some (leaves : Int))] ∧
      rpcEdges call.test = [("root_query".toList, ["load_balancer".toList], "root".toList, "round_robin".toList),
        ("leaf_query".toList, ["root".toList], "leaf".toList, "all".toList)] ∧
      rpcSizes call.test = [("root_query".toList, some 1024, some 1024), ("leaf_query".toList, some 1024, some 1024)] ∧
      listsOf call.test = [("load_balancer".toList, ["load_balancer/do_closed_loop_root_queries".toList]),
        ("root_query".toList, ["root/root_query_fanout".toList]), ("leaf_query".toList, [])] ∧
      actionsOf call.test = [("load_balancer/do_closed_loop_root_queries".toList, .rpc "root_query".toList, []),
        ("root/root_query_fanout".toList, .rpc "leaf_query".toList, [])] ∧
      loopOf call.test "load_balancer/do_closed_loop_root_queries" = some {
        maxDurationUs := some (seconds * 1000000), openLoopIntervalNs := some ((1000000000 / qps : Nat) : Int) } ∧
      loopOf call.test "root/root_query_fanout" = none := by
  obtain ⟨p, hp, hrun⟩ := run_given env h hr
  have f1 := hp ('r', "ROOT_COUNT") (by decide) (by simp [workloadOptions])
  have f2 := hp ('l', "LEAF_COUNT") (by decide) (by simp [workloadOptions])
  have f3 := hp ('t', "TIME_SECONDS") (by decide) (by simp [workloadOptions])
  have f4 := hp ('q', "QPS") (by decide) (by simp [workloadOptions])
  dsimp only at f1 f2 f3 f4
  rw [h1] at f1
  rw [h2] at f2
  rw [h3] at f3
  rw [h4] at f4
  rw [if_neg (by simp)] at hrun
  refine runs_limited rfl hw hrun (hp ('s', "SEQUENCER") (by decide) (by simp [workloadOptions]))
    (hp ('p', "PROTOCOL_DRIVER") (by decide) (by simp [workloadOptions]))
    (hp ('o', "OUTPUT_FILE") (by decide) (by simp [workloadOptions])) f3 hs ?_
  refine ⟨_, (by
    simp only [testOf, multiLevelTest, number_decimal f1 hn, number_decimal f2 hn', duration_decimal f3 hs, get_find f4,
      quotedText_ok (quotable_decimal qps), show (1000000000 : Int) = ((1000000000 : Nat) : Int) from rfl,
      quotient_decimal hq hq', ok_then]
    rfl), ?_⟩
  exact ⟨⟨rfl, rfl, fun _ => rfl⟩, rfl, rfl, rfl, rfl, rfl, rfl, rfl, rfl⟩

/-- C289 for simple_client_server_rpc_pattern.sh, for durations up to 2147 seconds. -/
theorem C289_client_server_partial (env : Str → Option Str) {os : List (Char × Str)} {arguments rest : List Str}
    (h : GivesOptions .clientServer os arguments rest) (hr : NoMoreOptions rest)
    (hw : PlainWords env .clientServer os) {clients servers seconds : Nat}
    (h1 : askedFor env .clientServer os 'c' = decimal clients)
    (h2 : askedFor env .clientServer os 'i' = decimal servers)
    (h3 : askedFor env .clientServer os 't' = decimal seconds) (hn : clients < 2 ^ 31) (hn' : servers < 2 ^ 31)
    (hs : seconds * 1000000 < 2 ^ 31) :
    ∃ call, run .clientServer env arguments = .runs call ∧ RunAsAsked env .clientServer os call ∧
      call.limit = some (seconds + 100) ∧
      serviceCounts call.test = [("client".toList, some (clients : Int)), ("server".toList, some (servers : Int))] ∧
      rpcEdges call.test = [("client_server_rpc".toList, ["client".toList], "server".toList, "all".toList)] ∧
      rpcSizes call.test = [("client_server_rpc".toList, some 196, some 262144)] ∧
      listsOf call.test = [("client".toList, ["run_queries".toList]), ("client_server_rpc".toList, [])] ∧
      actionsOf call.test = [("run_queries".toList, .rpc "client_server_rpc".toList, [])] ∧
      loopOf call.test "run_queries" = some {
        maxDurationUs := some (seconds * 1000000), maxParallelIterations := 100 } := by
  obtain ⟨p, hp, hrun⟩ := run_given env h hr
  have f1 := hp ('c', "CLIENT_COUNT") (by decide) (by simp [workloadOptions])
  have f2 := hp ('i', "SERVER_COUNT") (by decide) (by simp [workloadOptions])
  have f3 := hp ('t', "TIME_SECONDS") (by decide) (by simp [workloadOptions])
  dsimp only at f1 f2 f3
  rw [h1] at f1
  rw [h2] at f2
  rw [h3] at f3
  rw [if_neg (by simp)] at hrun
  refine runs_limited rfl hw hrun (hp ('s', "SEQUENCER") (by decide) (by simp [workloadOptions]))
    (hp ('p', "PROTOCOL_DRIVER") (by decide) (by simp [workloadOptions]))
    (hp ('o', "OUTPUT_FILE") (by decide) (by simp [workloadOptions])) f3 hs ?_
  refine ⟨_, (by
    simp only [testOf, clientServerTest, number_decimal f1 hn, number_decimal f2 hn', duration_decimal f3 hs, ok_then]
    rfl), ?_⟩
  exact ⟨⟨rfl, rfl, fun _ => rfl⟩, rfl, rfl, rfl, rfl, rfl, rfl, rfl⟩

/-- C289 for test_stochastic.sh. -/
theorem C289_stochastic (env : Str → Option Str) {os : List (Char × Str)} {arguments rest : List Str}
    (h : GivesOptions .stochastic os arguments rest) (hr : NoMoreOptions rest) (hw : PlainWords env .stochastic os)
    {clients servers : Nat} (h1 : askedFor env .stochastic os 'c' = decimal clients)
    (h2 : askedFor env .stochastic os 'i' = decimal servers) (hn : clients < 2 ^ 31) (hn' : servers < 2 ^ 31) :
    ∃ call, run .stochastic env arguments = .runs call ∧ RunAsAsked env .stochastic os call ∧ call.limit = none ∧
      serviceCounts call.test = [("client".toList, some (clients : Int)), ("server".toList, some (servers : Int))] ∧
      rpcEdges call.test =
        [("client_server_rpc".toList, ["client".toList], "server".toList, "stochastic{0.7:1,0.3:4}".toList)] ∧
      rpcSizes call.test = [("client_server_rpc".toList, some 196, some 262144)] ∧
      listsOf call.test = [("client".toList, ["run_queries".toList]), ("client_server_rpc".toList, [])] ∧
      actionsOf call.test = [("run_queries".toList, .rpc "client_server_rpc".toList, [])] ∧
      loopOf call.test "run_queries" = some { maxIterationCount := some 100 } := by
  obtain ⟨p, hp, hrun⟩ := run_given env h hr
  have f1 := hp ('c', "CLIENT_COUNT") (by decide) (by simp [workloadOptions])
  have f2 := hp ('i', "SERVER_COUNT") (by decide) (by simp [workloadOptions])
  dsimp only at f1 f2
  rw [h1] at f1
  rw [h2] at f2
  rw [if_neg (by simp)] at hrun
  refine runs_unlimited rfl hw hrun (hp ('s', "SEQUENCER") (by decide) (by simp [workloadOptions]))
    (hp ('p', "PROTOCOL_DRIVER") (by decide) (by simp [workloadOptions])) ?_
  refine ⟨_, (by
    simp only [testOf, stochasticTest, number_decimal f1 hn, number_decimal f2 hn', ok_then]
    rfl), ?_⟩
  exact ⟨⟨rfl, rfl, fun h => absurd h (by unfold HasArgument; decide)⟩, rfl, rfl, rfl, rfl, rfl, rfl, rfl⟩

/-- C289 for tripartite_rpc_pattern.sh, but for the number of results (`-l`), which is always 1. -/
theorem C289_tripartite_partial (env : Str → Option Str) {os : List (Char × Str)} {arguments rest : List Str}
    (h : GivesOptions .tripartite os arguments rest) (hr : NoMoreOptions rest) (hw : PlainWords env .tripartite os)
    {clients indexes : Nat} (h1 : askedFor env .tripartite os 'c' = decimal clients)
    (h2 : askedFor env .tripartite os 'i' = decimal indexes) (hn : clients < 2 ^ 31) (hn' : indexes < 2 ^ 31) :
    ∃ call, run .tripartite env arguments = .runs call ∧ RunAsAsked env .tripartite os call ∧ call.limit = none ∧
      serviceCounts call.test = [("client".toList, some (clients : Int)), ("index".toList, some (indexes : Int)),
        ("result".toList, some 1)] ∧
      rpcEdges call.test = [("client_index_rpc".toList, ["client".toList], "index".toList, "all".toList),
        ("client_result_rpc".toList, ["client".toList], "result".toList, "all".toList)] ∧
      rpcSizes call.test = [("client_index_rpc".toList, some 196, some 1024),
        ("client_result_rpc".toList, some 64, some 512)] ∧
      listsOf call.test = [("client".toList, ["client_do_many_queries".toList]),
        ("client_do_one_query".toList, ["client_queryindex".toList, "client_queryresult".toList]),
        ("client_index_rpc".toList, []), ("client_result_rpc".toList, [])] ∧
      actionsOf call.test = [("client_do_many_queries".toList, .actionList "client_do_one_query".toList, []),
        ("client_queryindex".toList, .rpc "client_index_rpc".toList, []),
        ("client_queryresult".toList, .rpc "client_result_rpc".toList, ["client_queryindex".toList])] ∧
      loopOf call.test "client_do_many_queries" = some { maxIterationCount := some 10 } := by
  obtain ⟨p, hread, hp⟩ := options_read env h hr
  have hres : p.find "RESULT_COUNT".toList = some "1".toList := by
    rw [getopts_gives h, getopts_none hr, List.append_nil] at hread
    obtain ⟨q, h3, h4⟩ := readOptions_spec .tripartite (initial env .tripartite) (gives_letters h)
    rw [hread] at h3
    injection h3 with h3
    subst h3
    have := h4 ('r', "RESULT_COUNT") (by decide) (by decide)
    rw [this]
    have hg : given os 'r' = none := by
      unfold given
      rw [Option.map_eq_none_iff, List.getLast?_eq_none_iff, List.filter_eq_nil_iff]
      intro o ho
      rw [decide_eq_true_eq]
      exact gives_no_r h o ho
    rw [hg]
    rfl
  have hrun := run_read hread
  have f1 := hp ('c', "CLIENT_COUNT") (by decide) (by simp [workloadOptions])
  have f2 := hp ('i', "INDEX_COUNT") (by decide) (by simp [workloadOptions])
  dsimp only at f1 f2
  rw [h1] at f1
  rw [h2] at f2
  rw [if_neg (by simp)] at hrun
  refine runs_unlimited rfl hw hrun (hp ('s', "SEQUENCER") (by decide) (by simp [workloadOptions]))
    (hp ('p', "PROTOCOL_DRIVER") (by decide) (by simp [workloadOptions])) ?_
  refine ⟨_, (by
    simp only [testOf, tripartiteTest, number_decimal f1 hn, number_decimal f2 hn',
      number_decimal (n := 1) (key := "RESULT_COUNT") hres (by decide), ok_then]
    rfl), ?_⟩
  exact ⟨⟨rfl, rfl, fun h => absurd h (by unfold HasArgument; decide)⟩, rfl, rfl, rfl, rfl, rfl, rfl, rfl⟩

/-- The words of a command line. -/
def words (l : List String) : List Str := l.map String.toList

/-- The hypotheses of C289 hold of a call with options in both forms. -/
example : ∃ call, run .clique (fun _ => none) (words ["-vn", "12", "-t60", "-m", "sync_burst_spread"]) = .runs call ∧
    serviceCounts call.test = [("clique".toList, some 12)] ∧ call.limit = some 160 := by
  have hg : GivesOptions .clique
      [('v', []), ('n', "12".toList), ('t', "60".toList), ('m', "sync_burst_spread".toList)]
      (words ["-vn", "12", "-t60", "-m", "sync_burst_spread"]) [] :=
    .verboseAnd (by decide) (.two (by unfold HasArgument; decide) (.one (by unfold HasArgument; decide) (by decide)
      (.two (by unfold HasArgument; decide) .done)))
  obtain ⟨call, h1, _, h2, h3, _⟩ := C289_clique_partial (fun _ => none) hg (fun _ _ h => by cases h)
    ⟨by unfold OneWord; decide, by unfold Quotable; decide⟩ (nodes := 12) (seconds := 60) (by decide +kernel) (by decide +kernel) rfl
    (by unfold Quotable; decide) (by decide) (by decide) (by decide)
  exact ⟨call, h1, h3, h2⟩

/-- The rate comes from the environment if no option gives it. -/
example : ∃ call, run .multiLevel (fun k => if k = "QPS".toList then some "200".toList else none) (words ["-l", "5"]) =
      .runs call ∧ (loopOf call.test "load_balancer/do_closed_loop_root_queries").bind (·.openLoopIntervalNs) =
      some 5000000 := by
  have hg : GivesOptions .multiLevel [('l', "5".toList)] (words ["-l", "5"]) [] :=
    .two (by unfold HasArgument; decide) .done
  obtain ⟨call, h1, _, _, _, _, _, _, _, h2, _⟩ := C289_multi_level_partial
    (fun k => if k = "QPS".toList then some "200".toList else none) hg (fun _ _ h => by cases h)
    ⟨by unfold OneWord; decide, by unfold Quotable; decide⟩ (roots := 1) (leaves := 5) (seconds := 30) (qps := 200)
    (by decide +kernel) (by decide +kernel) (by decide +kernel) (by decide +kernel) (by decide) (by decide) (by decide) (by decide) (by decide)
  exact ⟨call, h1, by rw [h2]; rfl⟩

/-- A word that is no option ends the options. -/
example : ∃ call, run .clientServer (fun _ => none) (words ["-c", "3", "-i4", "more", "-c", "9"]) = .runs call ∧
    serviceCounts call.test = [("client".toList, some 3), ("server".toList, some 4)] := by
  have hg : GivesOptions .clientServer [('c', "3".toList), ('i', "4".toList)]
      (words ["-c", "3", "-i4", "more", "-c", "9"]) (words ["more", "-c", "9"]) :=
    .two (by unfold HasArgument; decide) (.one (by unfold HasArgument; decide) (by decide) .done)
  obtain ⟨call, h1, _, _, h2, _⟩ := C289_client_server_partial (fun _ => none) hg
    (fun w m h => by injection h with h _; rw [← h]; decide)
    ⟨by unfold OneWord; decide, by unfold Quotable; decide⟩ (clients := 3) (servers := 4) (seconds := 30)
    (by decide +kernel) (by decide +kernel) (by decide +kernel) (by decide) (by decide) (by decide)
  exact ⟨call, h1, h2⟩

example : ∃ call, run .stochastic (fun _ => none) (words ["-s", "host:10001", "--"]) = .runs call ∧
    serviceCounts call.test = [("client".toList, some 1), ("server".toList, some 5)] ∧
    call.sequencer = "host:10001".toList := by
  have hg : GivesOptions .stochastic [('s', "host:10001".toList)] (words ["-s", "host:10001", "--"]) (words ["--"]) :=
    .two (by unfold HasArgument; decide) .done
  obtain ⟨call, h1, h3, _, h2, _⟩ := C289_stochastic (fun _ => none) hg
    (fun w m h => by injection h with h _; rw [← h]; decide)
    ⟨by unfold OneWord; decide, by unfold Quotable; decide⟩ (clients := 1) (servers := 5) (by decide +kernel) (by decide +kernel)
    (by decide) (by decide)
  exact ⟨call, h1, h2, h3.sequencer⟩

/-- C289 is false of the number of results of tripartite_rpc_pattern.sh: `-l 5` is accepted, and the test has
one result service. -/
theorem C289_results_negation : ∃ os call, GivesOptions .tripartite os (words ["-l", "5"]) [] ∧
    askedFor (fun _ => none) .tripartite os 'l' = decimal 5 ∧
    run .tripartite (fun _ => none) (words ["-l", "5"]) = .runs call ∧
    (serviceCounts call.test).lookup "result".toList = some (some 1) := by
  have hg : GivesOptions .tripartite [('l', "5".toList)] (words ["-l", "5"]) [] :=
    .two (by unfold HasArgument; decide) .done
  obtain ⟨call, h1, _, _, h2, _⟩ := C289_tripartite_partial (fun _ => none) hg (fun _ _ h => by cases h)
    ⟨by unfold OneWord; decide, by unfold Quotable; decide⟩ (clients := 1) (indexes := 1) (by decide +kernel) (by decide +kernel)
    (by decide) (by decide)
  exact ⟨_, call, hg, by decide +kernel, h1, by rw [h2]; decide⟩

/-- C289 is false of a long duration: with `-t 3600` no test is run. -/
theorem C289_duration_negation : ∃ os, GivesOptions .clientServer os (words ["-t", "3600"]) [] ∧
    askedFor (fun _ => none) .clientServer os 't' = decimal 3600 ∧
    run .clientServer (fun _ => none) (words ["-t", "3600"]) = .failed := by
  refine ⟨[('t', "3600".toList)], .two (by unfold HasArgument; decide) .done, by decide +kernel, ?_⟩
  have h : (match run .clientServer (fun _ => none) (words ["-t", "3600"]) with
    | .failed => true
    | _ => false) = true := by decide +kernel
  split at h
  · assumption
  · cases h

/-! ### C290: wrong use -/

/-- C290: a script whose arguments are used wrongly shows its usage, and no test is run. -/
theorem C290_usage {s : Script} (env : Str → Option Str) {os : List (Char × Str)} {arguments rest : List Str}
    (h : GivesOptions s os arguments rest) (hw : WrongUse s rest) : run s env arguments = .help := by
  obtain ⟨o, ho, hb⟩ := wrong_shown hw
  have : readOptions s (getopts (letters s) none arguments) (initial env s) = none := by
    rw [getopts_gives h]
    exact readOptions_bad s _ (List.mem_append_right _ ho) hb
  unfold run
  rw [this]

/-- C290: a script shows its usage and exits with status 0 only then; for all other arguments it is clear what
they ask for. -/
theorem C290_otherwise {s : Script} (env : Str → Option Str) {arguments : List Str}
    (h : run s env arguments ≠ .help) :
    ∃ os rest, GivesOptions s os arguments rest ∧ NoMoreOptions rest := by
  obtain ⟨os, rest, h1, h2⟩ := used s _ arguments (Nat.le_refl _)
  rcases h2 with h2 | h2
  · exact ⟨os, rest, h1, h2⟩
  · exact absurd (C290_usage env h1 h2) h

/-- C290: what the arguments ask for is determined by the arguments. -/
theorem C290_unambiguous {s : Script} {os os' : List (Char × Str)} {arguments rest rest' : List Str}
    (h : GivesOptions s os arguments rest) (hr : NoMoreOptions rest) (h' : GivesOptions s os' arguments rest')
    (hr' : NoMoreOptions rest') : os = os' := by
  have e := getopts_gives h
  rw [getopts_gives h', getopts_none hr, getopts_none hr', List.append_nil, List.append_nil] at e
  exact e.symm

/-- C290: clique refuses to run with fewer than two nodes, with status 1. -/
theorem C290_nodes (env : Str → Option Str) {os : List (Char × Str)} {arguments rest : List Str}
    (h : GivesOptions .clique os arguments rest) (hr : NoMoreOptions rest) {nodes : Nat}
    (h1 : askedFor env .clique os 'n' = decimal nodes) (hn : nodes < 2) (status : Call → Nat) :
    run .clique env arguments = .refused ∧ exitStatus status (run .clique env arguments) = 1 := by
  obtain ⟨p, hp, hrun⟩ := run_given env h hr
  have f1 := hp ('n', "NODE_COUNT") (by decide) (by simp [workloadOptions])
  dsimp only at f1
  rw [h1] at f1
  rw [f1, Option.bind_some, testNumber_decimal (by omega), if_pos ⟨rfl, by simp; omega⟩] at hrun
  rw [hrun]
  exact ⟨rfl, rfl⟩

/-- C290: so it does if the number is written with a sign, down to the smallest number that the shell has. -/
theorem C290_signed (env : Str → Option Str) {os : List (Char × Str)} {arguments rest : List Str}
    (h : GivesOptions .clique os arguments rest) (hr : NoMoreOptions rest) {nodes : Nat}
    (h1 : (askedFor env .clique os 'n' = '-' :: decimal nodes ∧ nodes ≤ 2 ^ 63) ∨
      (askedFor env .clique os 'n' = '+' :: decimal nodes ∧ nodes < 2)) (status : Call → Nat) :
    run .clique env arguments = .refused ∧ exitStatus status (run .clique env arguments) = 1 := by
  obtain ⟨p, hp, hrun⟩ := run_given env h hr
  have f1 := hp ('n', "NODE_COUNT") (by decide) (by simp [workloadOptions])
  dsimp only at f1
  rcases h1 with ⟨h1, hn⟩ | ⟨h1, hn⟩
  · rw [h1] at f1
    rw [f1, Option.bind_some, testNumber_minus hn, if_pos ⟨rfl, by simp⟩] at hrun
    rw [hrun]
    exact ⟨rfl, rfl⟩
  · rw [h1] at f1
    rw [f1, Option.bind_some, testNumber_plus (by omega), if_pos ⟨rfl, by simp; omega⟩] at hrun
    rw [hrun]
    exact ⟨rfl, rfl⟩

example : run .clique (fun _ => none) (words ["-n", "-3"]) = .refused :=
  (C290_signed _ (.two (by unfold HasArgument; decide) .done) (fun _ _ h => by cases h) (nodes := 3)
    (Or.inl ⟨by decide +kernel, by decide⟩) fun _ => 0).1

/-- C290: the status of a script that ran a test is that of the run, and a script that could not run one
fails. -/
theorem C290_status_partial (status : Call → Nat) (s : Script) (env : Str → Option Str) (arguments : List Str) :
    (∀ call, run s env arguments = .runs call → exitStatus status (run s env arguments) = status call) ∧
    (run s env arguments = .refused ∨ run s env arguments = .failed →
      exitStatus status (run s env arguments) = 1) := by
  refine ⟨fun call h => by rw [h]; rfl, fun h => ?_⟩
  rcases h with h | h <;> rw [h] <;> rfl

example : run .tripartite (fun _ => none) (words ["-c", "3", "-vh"]) = .help :=
  C290_usage (os := [('c', "3".toList), ('v', [])]) _
    (.two (by unfold HasArgument; decide) (.verboseAnd (by decide) .done))
    (.unknown (w := []) (by unfold HasArgument; decide) (by decide) (by decide))

example : run .clique (fun _ => none) (words ["-n"]) = .help :=
  C290_usage _ .done (.missing (by unfold HasArgument; decide))

example : run .clique (fun _ => none) (words ["-n", "1"]) = .refused :=
  (C290_nodes _ (.two (by unfold HasArgument; decide) .done) (fun _ _ h => by cases h) (nodes := 1) (by decide +kernel)
    (by decide) fun _ => 0).1

/-- C290 is false of the status: a script with an option that it does not have exits with status 0, as if the
test had been run. -/
theorem C290_status_negation (status : Call → Nat) : WrongUse .clique (words ["-x"]) ∧
    exitStatus status (run .clique (fun _ => none) (words ["-x"])) = 0 := by
  have h : WrongUse .clique (words ["-x"]) :=
    .unknown (w := []) (by unfold HasArgument; decide) (by decide) (by decide)
  refine ⟨h, ?_⟩
  rw [C290_usage _ .done h]
  rfl

/-! ### C291: time limits -/

/-- The deadlines of the test of a call: that of the sequencer and that of the client, in seconds. -/
def TimeAllowed (call : Call) (n : Int) : Prop :=
  ∃ sent, Timeout.mainRunTests (call.limit.getD 0) [[]] = .ok (.ok ([sent], n)) ∧ Timeout.testDeadline sent = .ok n

theorem call_of_run {env : Str → Option Str} {s : Script} {arguments : List Str} {p : Params} {call : Call}
    (h : run s env arguments =
      if s = .clique ∧ ((p.find "NODE_COUNT".toList).bind testNumber).any (· ≤ 1) then .refused
      else
        match callOf s p with
        | .ok call => .runs call
        | _ => .failed) (hc : run s env arguments = .runs call) : callOf s p = .ok call := by
  rw [h] at hc
  split at hc
  · cases hc
  · split at hc
    · next c hs =>
      injection hc with hc
      rw [hs, hc]
    · cases hc

/-- What the call of a script consists of. -/
theorem callOf_parts {s : Script} {p : Params} {call : Call} (h : callOf s p = .ok call) :
    testOf p s = .ok call.test ∧ (limits s = true → ∃ n, limit p = .ok n ∧ call.limit = some n) ∧
      (limits s = false → call.limit = none) := by
  simp only [callOf, Outcome.bind_ok] at h
  obtain ⟨_, -, _, -, _, -, _, -, t, ht, h⟩ := h
  cases hl : limits s with
  | true =>
    rw [hl, if_pos rfl] at h
    simp only [Outcome.bind_ok] at h
    obtain ⟨_, -, n, hn, h⟩ := h
    injection h with h
    subst h
    exact ⟨ht, fun _ => ⟨n, hn, rfl⟩, fun h => by cases h⟩
  | false =>
    rw [hl, if_neg (by decide)] at h
    injection h with h
    subst h
    exact ⟨ht, (fun h => by cases h), fun _ => rfl⟩

theorem limits_iff (s : Script) : limits s = true ↔ HasArgument s 't' := by
  unfold HasArgument
  cases s <;> decide

theorem test_duration {s : Script} {p : Params} {cfg : Config} (hl : limits s = true) (h : testOf p s = .ok cfg) :
    ∃ us, duration p = .ok us := by
  cases s with
  | clique =>
    simp only [testOf, cliqueTest, Outcome.bind_ok] at h
    obtain ⟨_, -, us, h, -⟩ := h
    exact ⟨us, h⟩
  | multiLevel =>
    simp only [testOf, multiLevelTest, Outcome.bind_ok] at h
    obtain ⟨_, -, _, -, us, h, -⟩ := h
    exact ⟨us, h⟩
  | clientServer =>
    simp only [testOf, clientServerTest, Outcome.bind_ok] at h
    obtain ⟨_, -, _, -, us, h, -⟩ := h
    exact ⟨us, h⟩
  | tripartite => cases hl
  | stochastic => cases hl

theorem duration_bound {p : Params} {n : Nat} (h : p.find "TIME_SECONDS".toList = some (decimal n)) {us : Int}
    (hu : duration p = .ok us) : n * 1000000 < 2 ^ 31 := by
  rw [duration, get_find h, decimal_digits] at hu
  replace hu : protoInt 32 (digits n ++ "000000".toList) = _ := hu
  rw [protoInt_unsigned (digits_no_sign n _) (literal_million n)] at hu
  split at hu
  · assumption
  · cases hu

theorem allowed {call : Call} {n : Int} (h : call.limit = some n) (h0 : 0 < n) (hn : n < 2 ^ 31) :
    TimeAllowed call n := by
  obtain ⟨sent, h1, h2, h3⟩ := Timeout.C111_flag_overrides h0 [[]] (by simp)
    (by simpa using hn)
  match sent, h2 with
  | [t], _ =>
    refine ⟨t, ?_, (h3 0 [] t rfl rfl).1⟩
    rw [h, Option.getD_some, h1]
    simp

/-- C291: a test that a script runs for a number of seconds is allowed 100 seconds more, by the client and by
the test sequencer. -/
theorem C291_limit {s : Script} (env : Str → Option Str) {os : List (Char × Str)} {arguments rest : List Str}
    (hl : HasArgument s 't') (h : GivesOptions s os arguments rest) (hr : NoMoreOptions rest) {seconds : Nat}
    (h1 : askedFor env s os 't' = decimal seconds) {call : Call} (hc : run s env arguments = .runs call) :
    TimeAllowed call (seconds + 100) := by
  obtain ⟨p, hp, hrun⟩ := run_given env h hr
  obtain ⟨ht, hlim, -⟩ := callOf_parts (call_of_run hrun hc)
  have hls := (limits_iff s).2 hl
  have f := hp ('t', "TIME_SECONDS") (by revert hls; cases s <;> decide)
    (by revert hls; cases s <;> simp [workloadOptions, limits])
  dsimp only at f
  rw [h1] at f
  obtain ⟨us, hu⟩ := test_duration hls ht
  have hb := duration_bound f hu
  obtain ⟨n, hn, hcl⟩ := hlim hls
  rw [limit_decimal f hb] at hn
  injection hn with hn
  subst hn
  exact allowed hcl (by omega) (by omega)

/-- C291: the tests of the scripts without such an option are allowed an hour. -/
theorem C291_no_limit {s : Script} (env : Str → Option Str) {arguments : List Str} (hl : ¬ HasArgument s 't')
    {call : Call} (hc : run s env arguments = .runs call) : TimeAllowed call 3600 := by
  have hc' := hc
  unfold run at hc
  split at hc
  · cases hc
  · next p hread =>
    obtain ⟨-, -, h⟩ := callOf_parts (call_of_run (run_read hread) hc')
    have hls : limits s = false := by
      cases hb : limits s with
      | true => exact absurd ((limits_iff s).1 hb) hl
      | false => rfl
    refine ⟨[], ?_, rfl⟩
    rw [h hls]
    rfl

example : ∃ call, run .clique (fun _ => none) (words ["-t", "60"]) = .runs call ∧ TimeAllowed call 160 := by
  have hg : GivesOptions .clique [('t', "60".toList)] (words ["-t", "60"]) [] :=
    .two (by unfold HasArgument; decide) .done
  have hn : NoMoreOptions [] := fun _ _ h => by cases h
  obtain ⟨call, h1, _⟩ := C289_clique_partial (fun _ => none) hg hn
    ⟨by unfold OneWord; decide, by unfold Quotable; decide⟩ (nodes := 10) (seconds := 60) (by decide +kernel)
    (by decide +kernel) rfl (by unfold Quotable; decide) (by decide) (by decide) (by decide)
  exact ⟨call, h1, C291_limit (seconds := 60) _ (by unfold HasArgument; decide) hg hn (by decide +kernel) h1⟩

example : ∃ call, run .stochastic (fun _ => none) [] = .runs call ∧ TimeAllowed call 3600 := by
  obtain ⟨call, h1, _⟩ := C289_stochastic (fun _ => none) (rest := []) .done (fun _ _ h => by cases h)
    ⟨by unfold OneWord; decide, by unfold Quotable; decide⟩ (clients := 1) (servers := 5) (by decide +kernel) (by decide +kernel)
    (by decide) (by decide)
  exact ⟨call, h1, C291_no_limit _ (by unfold HasArgument; decide) h1⟩

/-! ### C292: the tests are accepted -/

theorem accepted_services {s : Script} {p : Params} {cfg : Config} (h : testOf p s = .ok cfg) :
    (cfg.services.map (·.name)).Nodup ∧ ∀ x ∈ cfg.services, FieldsFit x := by
  cases s with
  | clique =>
    simp only [testOf, cliqueTest, Outcome.bind_ok] at h
    obtain ⟨a1, e1, _, -, _, -, _, -, ht⟩ := h
    injection ht with ht
    subst ht
    refine ⟨by dsimp only [List.map]; decide, fun x hx => ?_⟩
    rw [List.mem_singleton.1 hx]
    exact fits_count rfl rfl rfl rfl (number_fits e1)
  | multiLevel =>
    simp only [testOf, multiLevelTest, Outcome.bind_ok] at h
    obtain ⟨a1, e1, a2, e2, _, -, _, -, _, -, _, -, ht⟩ := h
    injection ht with ht
    subst ht
    refine ⟨by dsimp only [List.map]; decide, fun x hx => ?_⟩
    simp only [List.mem_cons, List.not_mem_nil, or_false] at hx
    rcases hx with rfl | rfl | rfl
    · exact fits_count rfl rfl rfl rfl (by unfold InI32; decide)
    · exact fits_count rfl rfl rfl rfl (number_fits e1)
    · exact fits_count rfl rfl rfl rfl (number_fits e2)
  | clientServer =>
    simp only [testOf, clientServerTest, Outcome.bind_ok] at h
    obtain ⟨a1, e1, a2, e2, _, -, ht⟩ := h
    injection ht with ht
    subst ht
    refine ⟨by dsimp only [List.map]; decide, fun x hx => ?_⟩
    simp only [List.mem_cons, List.not_mem_nil, or_false] at hx
    rcases hx with rfl | rfl
    · exact fits_count rfl rfl rfl rfl (number_fits e1)
    · exact fits_count rfl rfl rfl rfl (number_fits e2)
  | tripartite =>
    simp only [testOf, tripartiteTest, Outcome.bind_ok] at h
    obtain ⟨a1, e1, a2, e2, a3, e3, ht⟩ := h
    injection ht with ht
    subst ht
    refine ⟨by dsimp only [List.map]; decide, fun x hx => ?_⟩
    simp only [List.mem_cons, List.not_mem_nil, or_false] at hx
    rcases hx with rfl | rfl | rfl
    · exact fits_count rfl rfl rfl rfl (number_fits e1)
    · exact fits_count rfl rfl rfl rfl (number_fits e2)
    · exact fits_count rfl rfl rfl rfl (number_fits e3)
  | stochastic =>
    simp only [testOf, stochasticTest, Outcome.bind_ok] at h
    obtain ⟨a1, e1, a2, e2, ht⟩ := h
    injection ht with ht
    subst ht
    refine ⟨by dsimp only [List.map]; decide, fun x hx => ?_⟩
    simp only [List.mem_cons, List.not_mem_nil, or_false] at hx
    rcases hx with rfl | rfl
    · exact fits_count rfl rfl rfl rfl (number_fits e1)
    · exact fits_count rfl rfl rfl rfl (number_fits e2)

/-- The decimals in the text of test_stochastic.sh are read as probabilities. -/
def ReadsDecimals (e : Env) : Prop :=
  ∀ t ∈ ["0.7".toList, "0.3".toList], ∃ q, e.atof t = some q ∧ 0 ≤ q ∧ q ≤ 1

theorem parseStochastic_ok {atof : Str → Option Rat} {rest : Str} {d : Fanout.StochasticDist}
    {ds : List Fanout.StochasticDist} (h1 : rest.getLast? = some '}')
    (h2 : Fanout.parseStochasticItems atof (Fanout.strSplit ',' rest.dropLast) = .ok (d :: ds)) :
    Fanout.parseStochastic atof ('{' :: rest) = .ok (d :: ds) := by
  unfold Fanout.parseStochastic
  split
  · next rest' he =>
    injection he with _ he
    subst he
    rw [if_pos h1, h2]
  · next hne => exact absurd rfl (hne rest)

theorem stochastic_filter {e : Env} (h : ReadsDecimals e) :
    ∃ parsed, Fanout.initializeRpcFanoutFilter e.atof "stochastic{0.7:1,0.3:4}".toList = .ok parsed := by
  obtain ⟨q1, h1, h2, h3⟩ := h _ (List.mem_cons_self)
  obtain ⟨q2, g1, g2, g3⟩ := h _ (List.mem_cons_of_mem _ List.mem_cons_self)
  have i1 : Fanout.parseStochasticItem e.atof "0.7:1".toList = .ok ⟨q1, 1⟩ := by
    unfold Fanout.parseStochasticItem
    rw [show Fanout.strSplit ':' "0.7:1".toList = ["0.7".toList, "1".toList] from by decide +kernel]
    simp only [h1]
    rw [if_neg (by rintro (h | h); exact absurd h2 (Rat.not_le.2 h); exact absurd h3 (Rat.not_le.2 h)),
      show Fanout.simpleAtoi32 "1".toList = some 1 from by decide +kernel]
    rfl
  have i2 : Fanout.parseStochasticItem e.atof "0.3:4".toList = .ok ⟨q2, 4⟩ := by
    unfold Fanout.parseStochasticItem
    rw [show Fanout.strSplit ':' "0.3:4".toList = ["0.3".toList, "4".toList] from by decide +kernel]
    simp only [g1]
    rw [if_neg (by rintro (h | h); exact absurd g2 (Rat.not_le.2 h); exact absurd g3 (Rat.not_le.2 h)),
      show Fanout.simpleAtoi32 "4".toList = some 4 from by decide +kernel]
    rfl
  have i3 : Fanout.parseStochastic e.atof "{0.7:1,0.3:4}".toList = .ok [⟨q1, 1⟩, ⟨q2, 4⟩] := by
    refine parseStochastic_ok (rest := "0.7:1,0.3:4}".toList) (by decide +kernel) ?_
    rw [show Fanout.strSplit ',' "0.7:1,0.3:4}".toList.dropLast = ["0.7:1".toList, "0.3:4".toList] from by
      decide +kernel]
    simp only [Fanout.parseStochasticItems, i1, i2]
  refine ⟨{ filter := .stochastic, dist := [⟨q1, 1⟩, ⟨q2, 4⟩] }, ?_⟩
  unfold Fanout.initializeRpcFanoutFilter
  rw [show Fanout.findFilter Fanout.plainFilters "stochastic{0.7:1,0.3:4}".toList = none from by decide +kernel]
  dsimp only
  rw [if_pos (by decide), show "stochastic{0.7:1,0.3:4}".toList.takeWhile (· ≠ '{') = "stochastic".toList from by decide +kernel,
    show "stochastic{0.7:1,0.3:4}".toList.dropWhile (· ≠ '{') = "{0.7:1,0.3:4}".toList from by decide +kernel,
    show Fanout.findFilter Fanout.paramFilters "stochastic".toList = some .stochastic from by decide +kernel]
  simp only [i3]

theorem test_accepted {e : Env} {s : Script} {p : Params} {cfg : Config} (h : testOf p s = .ok cfg)
    (hm : s = .clique → ∃ m, p.find "SYNCHRONIZATION_MODE".toList = some m ∧
      m ∈ ["constant".toList, "exponential".toList, "sync_burst".toList, "sync_burst_spread".toList])
    (hf : s = .stochastic → ReadsDecimals e) : Accepts e cfg := by
  cases s with
  | clique =>
    obtain ⟨m, hm1, hm2⟩ := hm rfl
    simp only [testOf, cliqueTest, Outcome.bind_ok] at h
    obtain ⟨a1, -, us, -, m', h1, m'', h2, h⟩ := h
    rw [get_find hm1, Outcome.ok.injEq] at h1
    subst h1
    have : m'' = m := by
      unfold quotedText at h2
      split at h2
      · cases h2
      · rw [Outcome.ok.injEq] at h2
        exact h2.symm
    subst this
    injection h with h
    subst h
    refine ⟨canonical_ok (services := [_]) (by rfl) rfl ?_ (by simp), ?_⟩
    · intro a ha i hi
      rw [List.mem_singleton.1 ha] at hi
      injection hi with hi
      exact mode_valid hm2 i (by rw [← hi])
    · simp only [validateTrafficConfig, validateServices, Outcome.bind_ok]
      exact ⟨_, by rfl, trivial⟩
  | multiLevel =>
    simp only [testOf, multiLevelTest, Outcome.bind_ok] at h
    obtain ⟨a1, -, a2, -, _, -, _, -, _, -, _, -, h⟩ := h
    injection h with h
    subst h
    refine ⟨⟨_, by rfl⟩, ?_⟩
    simp only [validateTrafficConfig, validateServices, Outcome.bind_ok]
    exact ⟨_, by rfl, _, by rfl, _, by rfl, trivial⟩
  | clientServer =>
    simp only [testOf, clientServerTest, Outcome.bind_ok] at h
    obtain ⟨a1, -, a2, -, _, -, h⟩ := h
    injection h with h
    subst h
    refine ⟨⟨_, by rfl⟩, ?_⟩
    simp only [validateTrafficConfig, validateServices, Outcome.bind_ok]
    exact ⟨_, by rfl, _, by rfl, trivial⟩
  | tripartite =>
    simp only [testOf, tripartiteTest, Outcome.bind_ok] at h
    obtain ⟨a1, -, a2, -, a3, -, h⟩ := h
    injection h with h
    subst h
    refine ⟨⟨_, by rfl⟩, ?_⟩
    simp only [validateTrafficConfig, validateServices, Outcome.bind_ok]
    exact ⟨_, by rfl, _, by rfl, _, by rfl, trivial⟩
  | stochastic =>
    simp only [testOf, stochasticTest, Outcome.bind_ok] at h
    obtain ⟨a1, -, a2, -, h⟩ := h
    injection h with h
    subst h
    refine ⟨⟨_, by rfl⟩, ?_⟩
    simp only [validateTrafficConfig, validateServices, Outcome.bind_ok]
    obtain ⟨parsed, hp⟩ := stochastic_filter (hf rfl)
    simp only [initializeConfig, initTables, initRpcDefinitions, rpcDefinition, plainRpc, hp]
    exact ⟨_, by rfl, _, by rfl, trivial⟩

/-- C292 for the modes of clique that distbench knows: a test that a script runs is accepted by check_test, by
the test sequencer, and by the engine of every instance of every service. -/
theorem C292_accepted_partial (e : Env) {s : Script} (env : Str → Option Str) {os : List (Char × Str)}
    {arguments rest : List Str} (h : GivesOptions s os arguments rest) (hr : NoMoreOptions rest)
    (hm : s = .clique → askedFor env s os 'm' ∈
      ["constant".toList, "exponential".toList, "sync_burst".toList, "sync_burst_spread".toList])
    (hf : s = .stochastic → ReadsDecimals e) {call : Call} (hc : run s env arguments = .runs call) :
    Cli.checkTest e [call.test] = .ok () ∧
    ∃ sent, Cli.canonicalSequence [call.test] = .ok sent ∧
      ∀ t ∈ sent, ∀ x ∈ t.services, ∀ g, InGrid x g → ∃ tables, initializeConfig e t x.name g = .ok tables := by
  obtain ⟨p, hp, hrun⟩ := run_given env h hr
  obtain ⟨ht, -, -⟩ := callOf_parts (call_of_run hrun hc)
  have ha : Accepts e call.test := by
    refine test_accepted ht ?_ hf
    rintro rfl
    exact ⟨_, hp ('m', "SYNCHRONIZATION_MODE") (by decide) (by simp [workloadOptions]), hm rfl⟩
  have hok : Cli.checkTest e [call.test] = .ok () := checked fun c hc => by
    rw [List.mem_singleton.1 hc]
    exact ha
  refine ⟨hok, Cli.C178_accepted e [call.test] ?_ ?_ hok⟩
  · intro c hc
    rw [List.mem_singleton.1 hc]
    exact (accepted_services ht).1
  · intro c hc
    rw [List.mem_singleton.1 hc]
    exact (accepted_services ht).2

/-- The surroundings in the example: exact arithmetic, and the two decimals. -/
def exactEnv : Env := ⟨id, fun t => if t = "0.7".toList then some (7 / 10) else if t = "0.3".toList then some (3 / 10)
  else none⟩

theorem exactEnv_reads : ReadsDecimals exactEnv := by
  intro t ht
  rcases List.mem_cons.1 ht with rfl | ht
  · exact ⟨7 / 10, by decide +kernel, by decide +kernel, by decide +kernel⟩
  · rw [List.mem_singleton.1 ht]
    exact ⟨3 / 10, by decide +kernel, by decide +kernel, by decide +kernel⟩

example : ∃ call, run .stochastic (fun _ => none) (words ["-c", "2"]) = .runs call ∧
    Cli.checkTest exactEnv [call.test] = .ok () := by
  have hg : GivesOptions .stochastic [('c', "2".toList)] (words ["-c", "2"]) [] :=
    .two (by unfold HasArgument; decide) .done
  have hn : NoMoreOptions [] := fun _ _ h => by cases h
  obtain ⟨call, h1, _⟩ := C289_stochastic (fun _ => none) hg hn
    ⟨by unfold OneWord; decide, by unfold Quotable; decide⟩ (clients := 2) (servers := 5) (by decide +kernel)
    (by decide +kernel) (by decide) (by decide)
  exact ⟨call, h1, (C292_accepted_partial exactEnv (fun _ => none) hg hn (fun h => by cases h) (fun _ => exactEnv_reads)
    h1).1⟩

/-- C292 is false of a mode in the usage of clique_rpc_pattern.sh: a test with `-m nosync` is refused. -/
theorem C292_mode_negation : ∃ os call, GivesOptions .clique os (words ["-m", "nosync"]) [] ∧
    run .clique (fun _ => none) (words ["-m", "nosync"]) = .runs call ∧
    ∀ e, Cli.checkTest e [call.test] = .error "Unknown open_loop_interval_distribution" := by
  have hg : GivesOptions .clique [('m', "nosync".toList)] (words ["-m", "nosync"]) [] :=
    .two (by unfold HasArgument; decide) .done
  have h : (match run .clique (fun _ => none) (words ["-m", "nosync"]) with
    | .runs call => (match canonicalDescription call.test with
      | .error m => m == "Unknown open_loop_interval_distribution"
      | _ => false)
    | _ => false) = true := by decide +kernel
  split at h
  · next call hc =>
    split at h
    · next m hm =>
      refine ⟨_, call, hg, hc, fun e => ?_⟩
      rw [beq_iff_eq.1 h] at hm
      simp only [Cli.checkTest, Cli.canonicalSequence, hm]
      rfl
    · cases h
  · cases h

end Distbench.Workloads
