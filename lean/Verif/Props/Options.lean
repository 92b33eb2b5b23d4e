import Verif.Spec.Options
import Verif.Props.Services

/-! Property theorems C300: options that are added by name and what is then read. -/

namespace Distbench
open Services Options Spec

namespace Options

theorem text_append (a b : List NamedSetting) (n d : Str) :
    getNamedSettingString (a ++ b) n d
      = getNamedSettingString a n (getNamedSettingString b n d) := by
  induction a with
  | nil => rfl
  | cons s rest ih =>
    rw [List.cons_append, getNamedSettingString, getNamedSettingString]
    split
    · exact ih
    · split
      · exact ih
      · split
        · exact ih
        · split
          · rfl
          · exact ih

theorem number_append (a b : List NamedSetting) (n : Str) (d : Int) :
    getNamedSettingInt64 (a ++ b) n d
      = getNamedSettingInt64 a n (getNamedSettingInt64 b n d) := by
  induction a with
  | nil => rfl
  | cons s rest ih =>
    rw [List.cons_append, getNamedSettingInt64, getNamedSettingInt64]
    split
    · exact ih
    · split
      · exact ih
      · split
        · exact ih
        · split
          · rfl
          · exact ih

theorem text_none {l : List NamedSetting} {n : Str} (h : NoText l n) (d : Str) :
    getNamedSettingString l n d = d :=
  (C10_string_setting l n d d).2 (Or.inr ⟨h, rfl⟩)

theorem number_none {l : List NamedSetting} {n : Str} (h : NoNumber l n) (d : Int) :
    getNamedSettingInt64 l n d = d :=
  (C10_int_setting l n d d).2 (Or.inr ⟨h, rfl⟩)

/-- The first usable text does not depend on the default. -/
theorem text_some {l : List NamedSetting} {n : Str} (h : ¬ NoText l n) (d d' : Str) :
    getNamedSettingString l n d = getNamedSettingString l n d' := by
  rcases (C10_string_setting l n d _).1 rfl with h1 | h1
  · exact ((C10_string_setting l n d' _).2 (Or.inl h1)).symm
  · exact absurd h1.1 h

theorem number_some {l : List NamedSetting} {n : Str} (h : ¬ NoNumber l n) (d d' : Int) :
    getNamedSettingInt64 l n d = getNamedSettingInt64 l n d' := by
  rcases (C10_int_setting l n d _).1 rfl with h1 | h1
  · exact ((C10_int_setting l n d' _).2 (Or.inl h1)).symm
  · exact absurd h1.1 h

/-- What one call does to the three readings. -/
theorem call_readings (o : Grpc.Options) (c : Call) (n d : Str) (k : Int) :
    serverString (call o c) n d
        = getNamedSettingString o.serverSettings n
            (match c with | .serverText m v => if m = n then v else d | _ => d) ∧
      serverInt64 (call o c) n k
        = getNamedSettingInt64 o.serverSettings n
            (match c with | .serverInt m v => if m = n then v else k | _ => k) ∧
      clientString (call o c) n d
        = getNamedSettingString o.clientSettings n
            (match c with | .clientText m v => if m = n then v else d | _ => d) ∧
      clientInt64 (call o c) n k = clientInt64 o n k := by
  cases c with
  | serverInt m v =>
    by_cases h : m = n <;>
      simp [call, addServerInt64, serverString, serverInt64, clientString, clientInt64, text_append,
        number_append, getNamedSettingString, getNamedSettingInt64, h]
  | serverText m v =>
    by_cases h : m = n <;>
      simp [call, addServerString, serverString, serverInt64, clientString, clientInt64,
        text_append, number_append, getNamedSettingString, getNamedSettingInt64, h]
  | clientText m v =>
    by_cases h : m = n <;>
      simp [call, addClientString, serverString, serverInt64, clientString, clientInt64,
        text_append, number_append, getNamedSettingString, getNamedSettingInt64, h]

/-! ### C300: the option that was added is the one that is read -/

/-- C300, names that are not set.  Calls that set no text of the server named `n` leave what is
read under this name alone; likewise for numbers of the server and for texts of the client; the
numbers of the client are never changed. -/
theorem C300_others (o : Grpc.Options) (l : List Call) (n : Str) :
    ((∀ c ∈ l, ¬ SetsServerText n c) →
        ∀ d, serverString (calls o l) n d = serverString o n d) ∧
      ((∀ c ∈ l, ¬ SetsServerNumber n c) →
        ∀ d, serverInt64 (calls o l) n d = serverInt64 o n d) ∧
      ((∀ c ∈ l, ¬ SetsClientText n c) →
        ∀ d, clientString (calls o l) n d = clientString o n d) ∧
      ∀ d, clientInt64 (calls o l) n d = clientInt64 o n d := by
  induction l generalizing o with
  | nil => exact ⟨fun _ _ => rfl, fun _ _ => rfl, fun _ _ => rfl, fun _ => rfl⟩
  | cons c rest ih =>
    obtain ⟨i1, i2, i3, i4⟩ := ih (call o c)
    refine ⟨fun h d => ?_, fun h d => ?_, fun h d => ?_, fun d => ?_⟩
    · rw [calls, i1 (fun x hx => h x (List.mem_cons_of_mem _ hx)),
        (call_readings o c n d 0).1]
      have hc := h c (List.mem_cons_self ..)
      cases c with
      | serverText m v =>
        have : m ≠ n := fun e => hc ⟨v, by rw [e]⟩
        simp [this, serverString]
      | _ => rfl
    · rw [calls, i2 (fun x hx => h x (List.mem_cons_of_mem _ hx)),
        (call_readings o c n [] d).2.1]
      have hc := h c (List.mem_cons_self ..)
      cases c with
      | serverInt m v =>
        have : m ≠ n := fun e => hc ⟨v, by rw [e]⟩
        simp [this, serverInt64]
      | _ => rfl
    · rw [calls, i3 (fun x hx => h x (List.mem_cons_of_mem _ hx)),
        (call_readings o c n d 0).2.2.1]
      have hc := h c (List.mem_cons_self ..)
      cases c with
      | clientText m v =>
        have : m ≠ n := fun e => hc ⟨v, by rw [e]⟩
        simp [this, clientString]
      | _ => rfl
    · rw [calls, i4, (call_readings o c n [] d).2.2.2]

/-- C300, names that are taken.  Where the options hold a usable value already, no calls change
what is read. -/
theorem C300_kept (o : Grpc.Options) (l : List Call) (n : Str) :
    (¬ NoText o.serverSettings n →
        ∀ d, serverString (calls o l) n d = serverString o n d) ∧
      (¬ NoNumber o.serverSettings n →
        ∀ d, serverInt64 (calls o l) n d = serverInt64 o n d) ∧
      (¬ NoText o.clientSettings n →
        ∀ d, clientString (calls o l) n d = clientString o n d) := by
  induction l generalizing o with
  | nil => exact ⟨fun _ _ => rfl, fun _ _ => rfl, fun _ _ => rfl⟩
  | cons c rest ih =>
    obtain ⟨i1, i2, i3⟩ := ih (call o c)
    have sub : (∀ e ∈ o.serverSettings, e ∈ (call o c).serverSettings) ∧
        ∀ e ∈ o.clientSettings, e ∈ (call o c).clientSettings := by
      cases c <;> simp [call, addServerInt64, addServerString, addClientString] <;>
        exact fun e he => Or.inl he
    refine ⟨fun h d => ?_, fun h d => ?_, fun h d => ?_⟩
    · rw [calls, i1 (fun g => h fun e he => g e (sub.1 e he)), (call_readings o c n d 0).1]
      exact text_some h _ _
    · rw [calls, i2 (fun g => h fun e he => g e (sub.1 e he)), (call_readings o c n [] d).2.1]
      exact number_some h _ _
    · rw [calls, i3 (fun g => h fun e he => g e (sub.2 e he)), (call_readings o c n d 0).2.2.1]
      exact text_some h _ _

theorem calls_append (o : Grpc.Options) (a b : List Call) :
    calls o (a ++ b) = calls (calls o a) b := by
  induction a generalizing o with
  | nil => rfl
  | cons c a ih => exact ih (call o c)

/-- C300, new names.  Where the options hold no usable value yet, the value of the *first* call that
sets it is what is read, whatever the calls before and after it were.

Missing: a call that comes after another of the same name, kind and side, or that finds such a
value in the options, has no effect; see `C300_again_negation`. -/
theorem C300_first_partial (o : Grpc.Options) (l : List Call) (n : Str) :
    (∀ v d, NoText o.serverSettings n →
        FirstCall (SetsServerText n) (.serverText n v) l → serverString (calls o l) n d = v) ∧
      (∀ v d, NoNumber o.serverSettings n →
        FirstCall (SetsServerNumber n) (.serverInt n v) l → serverInt64 (calls o l) n d = v) ∧
      (∀ v d, NoText o.clientSettings n →
        FirstCall (SetsClientText n) (.clientText n v) l → clientString (calls o l) n d = v) := by
  refine ⟨?_, ?_, ?_⟩
  · rintro v d h ⟨before, after, rfl, -, hb⟩
    have e : ∀ d', serverString (calls o before) n d' = d' := fun d' => by
      rw [(C300_others o before n).1 hb, serverString, text_none h]
    rw [calls_append, calls]
    have hv : serverString (call (calls o before) (.serverText n v)) n d = v := by
      rw [(call_readings _ _ n d 0).1]; simpa [serverString, serverInt64, clientString] using e v
    rw [(C300_kept _ after n).1 ?_, hv]
    intro g
    refine g { name := some n, stringValue := some v } ?_ v ⟨rfl, rfl, rfl⟩
    simp [call, addServerString]
  · rintro v d h ⟨before, after, rfl, -, hb⟩
    have e : ∀ d', serverInt64 (calls o before) n d' = d' := fun d' => by
      rw [(C300_others o before n).2.1 hb, serverInt64, number_none h]
    rw [calls_append, calls]
    have hv : serverInt64 (call (calls o before) (.serverInt n v)) n d = v := by
      rw [(call_readings _ _ n [] d).2.1]; simpa [serverString, serverInt64, clientString] using e v
    rw [(C300_kept _ after n).2.1 ?_, hv]
    intro g
    refine g { name := some n, int64Value := some v } ?_ v ⟨rfl, rfl, rfl⟩
    simp [call, addServerInt64]
  · rintro v d h ⟨before, after, rfl, -, hb⟩
    have e : ∀ d', clientString (calls o before) n d' = d' := fun d' => by
      rw [(C300_others o before n).2.2.1 hb, clientString, text_none h]
    rw [calls_append, calls]
    have hv : clientString (call (calls o before) (.clientText n v)) n d = v := by
      rw [(call_readings _ _ n d 0).2.2.1]; simpa [serverString, serverInt64, clientString] using e v
    rw [(C300_kept _ after n).2.2 ?_, hv]
    intro g
    refine g { name := some n, stringValue := some v } ?_ v ⟨rfl, rfl, rfl⟩
    simp [call, addClientString]

/-- C300 is false in general: a value that is added a second time, under whatever name and to
whatever options, is not the one that is read, on the server's side and on the client's. -/
theorem C300_again_negation (o : Grpc.Options) (n v w d : Str) (i j k : Int)
    (hs : NoText o.serverSettings n) (hi : NoNumber o.serverSettings n)
    (hc : NoText o.clientSettings n) (hvw : v ≠ w) (hij : i ≠ j) :
    serverString (addServerString (addServerString o n v) n w) n d ≠ w ∧
      serverInt64 (addServerInt64 (addServerInt64 o n i) n j) n k ≠ j ∧
      clientString (addClientString (addClientString o n v) n w) n d ≠ w := by
  have h1 := (C300_first_partial o [.serverText n v, .serverText n w] n).1 v d hs
    ⟨[], _, rfl, ⟨v, rfl⟩, by simp⟩
  have h2 := (C300_first_partial o [.serverInt n i, .serverInt n j] n).2.1 i k hi
    ⟨[], _, rfl, ⟨i, rfl⟩, by simp⟩
  have h3 := (C300_first_partial o [.clientText n v, .clientText n w] n).2.2 v d hc
    ⟨[], _, rfl, ⟨v, rfl⟩, by simp⟩
  exact ⟨fun h => hvw (h1.symm.trans h), fun h => hij (h2.symm.trans h),
    fun h => hvw (h3.symm.trans h)⟩

/-- C300, activities.  An option that is added to an activity that has no usable value of this name
and kind is the one that is read; every other reading stays as it was. -/
theorem C300_activity_partial (a : Tables.ActivityConfig) (n m v : Str) (k : Int) :
    (NoText a.settings n →
        ∀ d, getNamedSettingString (addActivityString a n v).settings n d = v) ∧
      (NoNumber a.settings n →
        ∀ d, getNamedSettingInt64 (addActivityInt a n k).settings n d = k) ∧
      (∀ d, getNamedSettingInt64 (addActivityString a n v).settings m d
        = getNamedSettingInt64 a.settings m d) ∧
      (∀ d, getNamedSettingString (addActivityInt a n k).settings m d
        = getNamedSettingString a.settings m d) ∧
      (m ≠ n → ∀ d, getNamedSettingString (addActivityString a n v).settings m d
        = getNamedSettingString a.settings m d) ∧
      (m ≠ n → ∀ d, getNamedSettingInt64 (addActivityInt a n k).settings m d
        = getNamedSettingInt64 a.settings m d) ∧
      (addActivityString a n v).name = a.name ∧ (addActivityInt a n k).name = a.name := by
  refine ⟨fun h d => ?_, fun h d => ?_, fun d => ?_, fun d => ?_, fun h d => ?_, fun h d => ?_,
    rfl, rfl⟩
  · simp [addActivityString, text_append, getNamedSettingString, text_none h]
  · simp [addActivityInt, number_append, getNamedSettingInt64, number_none h]
  · by_cases e : n = m <;> simp [addActivityString, number_append, getNamedSettingInt64, e]
  · by_cases e : n = m <;> simp [addActivityInt, text_append, getNamedSettingString, e]
  · simp [addActivityString, text_append, getNamedSettingString, Ne.symm h]
  · simp [addActivityInt, number_append, getNamedSettingInt64, Ne.symm h]

/-- C300, the benchmarks.  Whatever the number of processors, the handoff benchmark of a pool type
runs the polling client and the handoff server with a pool of that type and of eight threads. -/
theorem C300_benchmark (cpus : Int) (pool : Str) (homa : Bool)
    (hp : pool ∈ ["simple".toList, "elastic".toList, "null".toList]) :
    Grpc.initDriver homa cpus (handoffBenchmark pool) = .ok (.polling, .handoff) ∧
      Grpc.serverPool cpus (handoffBenchmark pool) = Threadpool.createThreadpool pool 8 := by
  simp only [List.mem_cons, List.not_mem_nil, or_false] at hp
  have ht : serverString (handoffBenchmark pool) "threadpool_type".toList [] = pool :=
    (C300_first_partial _ _ _).1 _ _ (by simp [NoText])
      ⟨[_, _], [_], rfl, ⟨_, rfl⟩, by simp [SetsServerText]⟩
  have hn : serverInt64 (handoffBenchmark pool) "threadpool_size".toList cpus = 8 :=
    (C300_first_partial _ _ _).2.1 _ _ (by simp [NoNumber])
      ⟨[_, _, _], [], rfl, ⟨_, rfl⟩, by simp [SetsServerNumber]⟩
  have hpool : Grpc.serverPool cpus (handoffBenchmark pool)
      = Threadpool.createThreadpool pool 8 := by
    unfold Grpc.serverPool
    rw [← ht, ← hn]
    simp only [ht, hn]
    rfl
  refine ⟨?_, hpool⟩
  rcases hp with rfl | rfl | rfl <;> rfl

example : (Grpc.serverPool 96 (handoffBenchmark "simple".toList)) = .ok (.simple (.new 8)) :=
  (C300_benchmark 96 "simple".toList false (by simp)).2

/-- Adding a port twice keeps the first. -/
example : serverInt64 (calls { serverSettings := [{ name := some ['t'], stringValue := some ['x'] }] }
    [.clientText ['t'] ['y'], .serverInt ['t'] 7, .serverText ['t'] ['z'], .serverInt ['t'] 8])
    ['t'] 3 = 7 :=
  (C300_first_partial _ _ _).2.1 7 3 (by simp [NoNumber, IntEntry])
    ⟨[_], _, rfl, ⟨7, rfl⟩, by simp [SetsServerNumber]⟩

example : serverString (addServerString (addServerString {} ['a'] ['1']) ['a'] ['2']) ['a'] [] ≠ ['2'] :=
  (C300_again_negation {} ['a'] ['1'] ['2'] [] 1 2 0 (by simp [NoText]) (by simp [NoNumber])
    (by simp [NoText]) (by decide) (by decide)).1

example : serverString (calls (addServerString {} ['a'] ['1']) [.serverText ['a'] ['2']]) ['a'] []
    = ['1'] :=
  (C300_kept (addServerString {} ['a'] ['1']) _ ['a']).1
    (fun h => h _ (List.mem_cons_self ..) ['1'] ⟨rfl, rfl, rfl⟩) []

example : serverString (calls (addServerString {} ['a'] ['1']) [.serverText ['b'] ['2']]) ['a'] []
    = ['1'] :=
  (C300_others (addServerString {} ['a'] ['1']) _ ['a']).1 (by simp [SetsServerText]) []

example : getNamedSettingInt64
    (addActivityInt { name := ['w'], settings := [{ name := some ['u'], int64Value := some 4 }] }
      ['t'] 9).settings ['t'] 0 = 9 :=
  (C300_activity_partial _ ['t'] [] [] 9).2.1 (by simp [NoNumber, IntEntry]) 0

end Options
end Distbench
