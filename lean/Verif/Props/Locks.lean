import Verif.Spec.Locks

/-! Properties of the locks of the engines of a process. -/

namespace Distbench.Locks
open Distbench.Spec

/-! ### the order of the locks -/

/-- Locks that are taken while another one is held are of rank 1. -/
def rank : Lock → Nat
  | .notification _ => 1
  | .dictionary _ => 1
  | .peer _ _ _ => 1
  | _ => 0

/-- Functions that are called with a lock held. -/
def level : Fn → Nat
  | .many f => level f
  | .opt f => level f
  | .tryToNotify _ => 1
  | .getIndex _ => 1
  | .errorIndex _ => 1
  | .peerLog _ => 1
  | _ => 0

/-- From the locks `h`, the word takes locks in the order of their ranks, gives them back in the
reverse order, waits without locks, and leaves the locks `h'`. -/
inductive Ordered : List Lock → List Op → List Lock → Prop
  | nil {h} : Ordered h [] h
  | acquire {h h' l w} : (∀ m ∈ h, rank m < rank l) → Ordered (l :: h) w h' →
      Ordered h (.acquire l :: w) h'
  | release {h h' l w} : Ordered h w h' → Ordered (l :: h) (.release l :: w) h'
  | pause {h' w} : Ordered [] w h' → Ordered [] (.pause :: w) h'

theorem Ordered.append {h m h' v w} (hv : Ordered h v m) (hw : Ordered m w h') :
    Ordered h (v ++ w) h' := by
  induction hv with
  | nil => exact hw
  | acquire hr _ ih => exact .acquire hr (ih hw)
  | release _ ih => exact .release (ih hw)
  | pause _ ih => exact .pause (ih hw)

theorem Ordered.locked {h l w} (hr : ∀ m ∈ h, rank m < rank l)
    (hw : Ordered (l :: h) w (l :: h)) : Ordered h (locked l w) h :=
  .acquire hr (hw.append (.release .nil))

theorem Ordered.waited {l} : Ordered [] (waited l) [] :=
  .acquire (by simp) (.release (.pause (.acquire (by simp) (.release .nil))))

theorem nil_of_zero {h : List Lock} (hh : ∀ m ∈ h, rank m < 0) : h = [] := by
  cases h with
  | nil => rfl
  | cons a t => exact absurd (hh a (by simp)) (by omega)

theorem does_ordered {f w} (hd : Does f w) :
    ∀ h : List Lock, (∀ m ∈ h, rank m < level f) → Ordered h w h := by
  induction hd with
  | done => intro h _; exact .nil
  | next _ _ ih1 ih2 => intro h hh; exact (ih1 h hh).append (ih2 h hh)
  | no => intro h _; exact .nil
  | yes _ ih => intro h hh; exact ih h hh
  | notified => intro h _; exact .nil
  | notify => intro h hh; exact .locked hh .nil
  | getIndex => intro h hh; exact .locked hh .nil
  | noError => intro h _; exact .nil
  | error _ ih => intro h hh; exact ih h hh
  | peerLog => intro h hh; exact .locked hh .nil
  | cancelTraffic _ i1 =>
    intro h hh; obtain rfl := nil_of_zero hh
    exact (Ordered.locked (by simp) (i1 _ (by simp [rank, level])))
  | getContents =>
    intro h hh; obtain rfl := nil_of_zero hh
    exact (Ordered.locked (by simp) .nil)
  | overrideIndex =>
    intro h hh; obtain rfl := nil_of_zero hh
    exact (Ordered.locked (by simp) .nil)
  | fixedSize =>
    intro h hh; obtain rfl := nil_of_zero hh
    exact .nil
  | drawnSize =>
    intro h hh; obtain rfl := nil_of_zero hh
    exact (Ordered.locked (by simp) .nil)
  | respond _ _ i1 i2 =>
    intro h hh; obtain rfl := nil_of_zero hh
    exact (Ordered.append (i1 [] (by simp)) (i2 [] (by simp)))
  | finishAction =>
    intro h hh; obtain rfl := nil_of_zero hh
    exact (Ordered.locked (by simp) .nil)
  | allDone _ _ _ i1 i2 i3 =>
    intro h hh; obtain rfl := nil_of_zero hh
    exact (Ordered.append (Ordered.append (i1 [] (by simp)) (i2 [] (by simp))) (i3 [] (by simp)))
  | freeIterationState =>
    intro h hh; obtain rfl := nil_of_zero hh
    exact (Ordered.locked (by simp) .nil)
  | lastIteration _ _ i1 i2 =>
    intro h hh; obtain rfl := nil_of_zero hh
    exact (Ordered.append (Ordered.append (Ordered.locked (by simp) .nil) (i1 [] (by simp))) (i2 [] (by simp)))
  | nextIteration _ i1 =>
    intro h hh; obtain rfl := nil_of_zero hh
    exact (Ordered.append (Ordered.locked (by simp) .nil) (i1 [] (by simp)))
  | otherIteration _ i1 =>
    intro h hh; obtain rfl := nil_of_zero hh
    exact (Ordered.append (Ordered.locked (by simp) .nil) (i1 [] (by simp)))
  | rpc _ _ i1 i2 =>
    intro h hh; obtain rfl := nil_of_zero hh
    exact (Ordered.append (i1 [] (by simp)) (i2 [] (by simp)))
  | rpcDone _ _ _ i1 i2 i3 =>
    intro h hh; obtain rfl := nil_of_zero hh
    exact (Ordered.append (Ordered.append (i1 [] (by simp)) (i2 [] (by simp))) (i3 [] (by simp)))
  | initialSample _ i1 =>
    intro h hh; obtain rfl := nil_of_zero hh
    exact (i1 [] (by simp))
  | droppedSample =>
    intro h hh; obtain rfl := nil_of_zero hh
    exact .nil
  | replacedSample _ i1 =>
    intro h hh; obtain rfl := nil_of_zero hh
    exact .pause (Ordered.locked (by simp) (i1 _ (by simp [rank, level])))
  | unlimitedSample _ i1 =>
    intro h hh; obtain rfl := nil_of_zero hh
    exact (Ordered.locked (by simp) (i1 _ (by simp [rank, level])))
  | startNewIterations _ i1 =>
    intro h hh; obtain rfl := nil_of_zero hh
    exact (Ordered.append (Ordered.locked (by simp) .nil) (i1 [] (by simp)))
  | startOpenLoopIteration _ i1 =>
    intro h hh; obtain rfl := nil_of_zero hh
    exact (Ordered.append (Ordered.locked (by simp) .nil) (i1 [] (by simp)))
  | giveUp =>
    intro h hh; obtain rfl := nil_of_zero hh
    exact .nil
  | initiateOpenLoop =>
    intro h hh; obtain rfl := nil_of_zero hh
    exact (Ordered.locked (by simp) .nil)
  | initiateClosedLoop _ i1 =>
    intro h hh; obtain rfl := nil_of_zero hh
    exact (Ordered.append (Ordered.append (Ordered.locked (by simp) .nil) (Ordered.locked (by simp) .nil)) (i1 [] (by simp)))
  | visitDelay =>
    intro h hh; obtain rfl := nil_of_zero hh
    exact (Ordered.locked (by simp) .nil)
  | look =>
    intro h hh; obtain rfl := nil_of_zero hh
    exact (Ordered.locked (by simp) .nil)
  | round _ _ i1 i2 =>
    intro h hh; obtain rfl := nil_of_zero hh
    exact (Ordered.append (Ordered.append (i1 [] (by simp)) (i2 [] (by simp))) (.pause (Ordered.locked (by simp) .nil)))
  | waitForPending =>
    intro h hh; obtain rfl := nil_of_zero hh
    exact .pause (Ordered.locked (by simp) .nil)
  | cancelled _ _ _ i1 i2 i3 =>
    intro h hh; obtain rfl := nil_of_zero hh
    exact (Ordered.append (Ordered.append (i1 [] (by simp)) (i2 [] (by simp))) (i3 [] (by simp)))
  | merge _ i1 =>
    intro h hh; obtain rfl := nil_of_zero hh
    exact (Ordered.append (Ordered.locked (by simp) .nil) (Ordered.locked (by simp) (i1 _ (by simp [rank, level]))))
  | runActionList _ _ _ _ _ _ _ i1 i2 i3 i4 i5 i6 i7 =>
    intro h hh; obtain rfl := nil_of_zero hh
    exact (Ordered.append (Ordered.append (Ordered.append (Ordered.append (Ordered.append (Ordered.append (Ordered.append (i1 [] (by simp)) (i2 [] (by simp))) (i3 [] (by simp))) (i4 [] (by simp))) (i5 [] (by simp))) (i6 [] (by simp))) (i7 [] (by simp))) (Ordered.locked (by simp) .nil))
  | launch =>
    intro h hh; obtain rfl := nil_of_zero hh
    exact (Ordered.append (Ordered.locked (by simp) .nil) (.pause .nil))
  | addTask _ i1 =>
    intro h hh; obtain rfl := nil_of_zero hh
    exact (Ordered.append Ordered.waited (i1 [] (by simp)))
  | replayDone _ i1 =>
    intro h hh; obtain rfl := nil_of_zero hh
    exact (Ordered.append (i1 [] (by simp)) (Ordered.locked (by simp) .nil))
  | replayWaits =>
    intro h hh; obtain rfl := nil_of_zero hh
    exact Ordered.waited
  | replayStarts _ i1 =>
    intro h hh; obtain rfl := nil_of_zero hh
    exact (Ordered.append (Ordered.append Ordered.waited (i1 [] (by simp))) (Ordered.locked (by simp) .nil))
  | runReplay _ i1 =>
    intro h hh; obtain rfl := nil_of_zero hh
    exact (Ordered.append (Ordered.append (Ordered.locked (by simp) .nil) (i1 [] (by simp))) (Ordered.locked (by simp) .nil))
  | listTask _ _ i1 i2 =>
    intro h hh; obtain rfl := nil_of_zero hh
    exact (Ordered.append (i1 [] (by simp)) (i2 [] (by simp)))
  | replayTask _ _ i1 i2 =>
    intro h hh; obtain rfl := nil_of_zero hh
    exact (Ordered.append (Ordered.append (i1 [] (by simp)) (Ordered.locked (by simp) .nil)) (i2 [] (by simp)))
  | handlerAnswers _ _ i1 i2 =>
    intro h hh; obtain rfl := nil_of_zero hh
    exact (Ordered.append (Ordered.append (Ordered.locked (by simp) .nil) (i1 [] (by simp))) (i2 [] (by simp)))
  | handlerSleeps =>
    intro h hh; obtain rfl := nil_of_zero hh
    exact (Ordered.append (Ordered.locked (by simp) .nil) (.pause .nil))
  | handlerRuns _ i1 =>
    intro h hh; obtain rfl := nil_of_zero hh
    exact (Ordered.append (Ordered.locked (by simp) .nil) (i1 [] (by simp)))
  | poolRound _ _ _ i1 i2 i3 =>
    intro h hh; obtain rfl := nil_of_zero hh
    exact (Ordered.append (Ordered.append (Ordered.append (i1 [] (by simp)) Ordered.waited) (i2 [] (by simp))) (i3 [] (by simp)))
  | getLogs _ _ i1 i2 =>
    intro h hh; obtain rfl := nil_of_zero hh
    exact (Ordered.append (Ordered.append (i1 [] (by simp)) (i2 [] (by simp))) (Ordered.locked (by simp) .nil))
  | startTask _ i1 =>
    intro h hh; obtain rfl := nil_of_zero hh
    exact (i1 [] (by simp))
  | startRpcs _ i1 =>
    intro h hh; obtain rfl := nil_of_zero hh
    exact (i1 [] (by simp))
  | startInline _ i1 =>
    intro h hh; obtain rfl := nil_of_zero hh
    exact (i1 [] (by simp))
  | noTargets _ i1 =>
    intro h hh; obtain rfl := nil_of_zero hh
    exact (i1 [] (by simp))
  | targets _ i1 =>
    intro h hh; obtain rfl := nil_of_zero hh
    exact (i1 [] (by simp))
  | visitOpenLoop _ i1 =>
    intro h hh; obtain rfl := nil_of_zero hh
    exact (i1 [] (by simp))
  | visitActivity _ i1 =>
    intro h hh; obtain rfl := nil_of_zero hh
    exact (i1 [] (by simp))
  | visitSkip _ i1 =>
    intro h hh; obtain rfl := nil_of_zero hh
    exact (i1 [] (by simp))
  | visitStart _ i1 =>
    intro h hh; obtain rfl := nil_of_zero hh
    exact (i1 [] (by simp))
  | handlerTask _ i1 =>
    intro h hh; obtain rfl := nil_of_zero hh
    exact (i1 [] (by simp))

theorem code_ordered {w} (h : ThreadCode w) : Ordered [] w [] := by
  induction h with
  | main h => exact (does_ordered h [] (by simp)).append (.locked (by simp) .nil)
  | pool h => exact (does_ordered h [] (by simp)).append (.locked (by simp) .nil)
  | server h => exact does_ordered h [] (by simp)
  | client h => exact does_ordered h [] (by simp)
  | replayClient h => exact does_ordered h [] (by simp)
  | cancel h => exact does_ordered h [] (by simp)
  | results h => exact does_ordered h [] (by simp)
  | wait => exact .pause .nil
  | destroyPool => exact .waited
  | seq _ _ i1 i2 => exact i1.append i2

theorem ordered_acquire {h l w} (ho : Ordered h (.acquire l :: w) []) :
    (∀ m ∈ h, rank m < rank l) ∧ Ordered (l :: h) w [] := by
  cases ho with | acquire h1 h2 => exact ⟨h1, h2⟩

theorem ordered_release {h l w} (ho : Ordered h (.release l :: w) []) :
    Ordered (h.erase l) w [] := by
  cases ho with | release h => simpa using h

theorem ordered_pause {h w} (ho : Ordered h (.pause :: w) []) : h = [] ∧ Ordered h w [] := by
  cases ho with | pause h => exact ⟨rfl, h⟩

theorem ordered_nil {h} (ho : Ordered h [] []) : h = [] := by
  cases ho; rfl

theorem reach_ordered {s} (h : Reach s) : ∀ t ∈ s, Ordered t.held t.rest [] := by
  induction h with
  | start => simp
  | step _ hs ih =>
    cases hs with
    | start hw =>
      intro t ht
      rcases List.mem_append.1 ht with ht | ht
      · exact ih t ht
      · rw [List.mem_singleton.1 ht]; exact code_ordered hw
    | @acquire pre post held l w hfree =>
      intro t ht
      have hm := ih ⟨held, .acquire l :: w⟩ (by simp)
      rcases List.mem_append.1 ht with ht | ht
      · exact ih t (by simp [ht])
      · rcases List.mem_cons.1 ht with ht | ht
        · rw [ht]; exact (ordered_acquire hm).2
        · exact ih t (by simp [ht])
    | @release pre post held l w =>
      intro t ht
      have hm := ih ⟨held, .release l :: w⟩ (by simp)
      rcases List.mem_append.1 ht with ht | ht
      · exact ih t (by simp [ht])
      · rcases List.mem_cons.1 ht with ht | ht
        · rw [ht]; exact ordered_release hm
        · exact ih t (by simp [ht])
    | @resume pre post held w =>
      intro t ht
      have hm := ih ⟨held, .pause :: w⟩ (by simp)
      rcases List.mem_append.1 ht with ht | ht
      · exact ih t (by simp [ht])
      · rcases List.mem_cons.1 ht with ht | ht
        · rw [ht]; exact (ordered_pause hm).2
        · exact ih t (by simp [ht])

theorem wants_higher {t : Thread} (ho : Ordered t.held t.rest []) {l m : Lock} (hw : Wants t l)
    (hm : m ∈ t.held) : rank m < rank l := by
  obtain ⟨rest, hr⟩ := hw
  rw [hr] at ho
  exact (ordered_acquire ho).1 m hm

theorem rank_le (l : Lock) : rank l ≤ 1 := by cases l <;> simp [rank]

theorem wants_unique {t : Thread} {l m : Lock} (h : Wants t l) (h' : Wants t m) : l = m := by
  obtain ⟨r, hr⟩ := h
  obtain ⟨r', hr'⟩ := h'
  have := hr.symm.trans hr'
  simp only [List.cons.injEq, Op.acquire.injEq] at this
  exact this.1

/-! ### C209 -/

/-- C209.  The threads of a process never get into a deadlock, whatever the engines and the drivers
do, and no thread takes a lock it holds. -/
theorem C209_no_deadlock {s threads : List Thread} (h : Reach s) (hsub : ∀ t ∈ threads, t ∈ s) :
    ¬ Deadlocked threads := by
  rintro ⟨hne, hall⟩
  have key : ∀ n, ∀ t ∈ threads, ∀ l, Wants t l → 1 - rank l = n → False := by
    intro n
    induction n using Nat.strongRecOn with
    | ind n ih =>
      intro t ht l hw hn
      obtain ⟨l1, hw1, u, hu, hl⟩ := hall t ht
      rw [← wants_unique hw hw1] at hl
      obtain ⟨l2, hw2, _, _, _⟩ := hall u hu
      have h1 := wants_higher (reach_ordered h u (hsub u hu)) hw2 hl
      have h2 := rank_le l2
      exact ih (1 - rank l2) (by omega) u hu l2 hw2 rfl
  cases threads with
  | nil => exact hne rfl
  | cons t ts =>
    obtain ⟨l, hw, _⟩ := hall t (by simp)
    exact key _ t (by simp) l hw rfl

/-- C209.  A thread that waits for something else than a lock holds no lock. -/
theorem C209_waits_free {s : List Thread} (h : Reach s) {t : Thread} (ht : t ∈ s)
    (hw : WaitsElsewhere t) : t.held = [] := by
  obtain ⟨rest, hr⟩ := hw
  have ho := reach_ordered h t ht
  rw [hr] at ho
  exact (ordered_pause ho).1

theorem wanting_moves {s : List Thread} (h : Reach s) (n : Nat) :
    ∀ t ∈ s, ∀ l, Wants t l → 1 - rank l = n → ∃ t ∈ s, CanMove s t := by
  induction n using Nat.strongRecOn with
  | ind n ih =>
    intro t ht l hw hn
    by_cases hfree : ∀ u ∈ s, l ∉ u.held
    · exact ⟨t, ht, .inr ⟨l, hw, hfree⟩⟩
    · obtain ⟨u, hu⟩ := Classical.not_forall.1 hfree
      obtain ⟨hu, hl⟩ := Classical.not_imp.1 hu
      have hl := Classical.not_not.1 hl
      have ho := reach_ordered h u hu
      cases hr : u.rest with
      | nil =>
        rw [hr] at ho
        rw [ordered_nil ho] at hl
        cases hl
      | cons o w =>
        cases o with
        | release m => exact ⟨u, hu, .inl ⟨m, w, hr⟩⟩
        | pause =>
          rw [hr] at ho
          rw [(ordered_pause ho).1] at hl
          cases hl
        | acquire m =>
          have h1 := wants_higher ho ⟨w, hr⟩ hl
          have h2 := rank_le m
          exact ih (1 - rank m) (by omega) u hu m ⟨w, hr⟩ rfl

/-- C209.  As long as a thread is neither at its end nor waits for something else than a lock, some
thread can go on at once.  Each lock is given back: a thread at its end holds none. -/
theorem C209_progress {s : List Thread} (h : Reach s) :
    (∀ t ∈ s, t.rest = [] → t.held = []) ∧
    ((∃ t ∈ s, t.rest ≠ [] ∧ ¬ WaitsElsewhere t) → ∃ t ∈ s, CanMove s t) := by
  refine ⟨fun t ht hr => ?_, ?_⟩
  · have ho := reach_ordered h t ht
    rw [hr] at ho
    exact ordered_nil ho
  · rintro ⟨t, ht, hne, hnp⟩
    cases hr : t.rest with
    | nil => exact absurd hr hne
    | cons o w =>
      cases o with
      | release l => exact ⟨t, ht, .inl ⟨l, w, hr⟩⟩
      | pause => exact absurd ⟨w, hr⟩ hnp
      | acquire l => exact wanting_moves h _ t ht l ⟨w, hr⟩ rfl

/-- What a thread does that ends an RPC with an error, of an action list whose samples are
unlimited. -/
def callback : List Op :=
  [.acquire (.action 0), .acquire (.dictionary 0), .release (.dictionary 0), .release (.action 0)]

/-- Two threads end RPCs: the first has the lock of the list and wants the one of the dictionary, the
second waits for the lock of the list. -/
def twoCallbacks : List Thread := [⟨[.action 0], callback.tail⟩, ⟨[], callback⟩]

theorem twoCallbacks_reached : Reach twoCallbacks := by
  have hc : ThreadCode callback :=
    .client (e := 0) (l := 0) (a := 0)
      (.next (.rpcDone .no (.unlimitedSample (.error .getIndex)) .no) .done)
  have h1 : Reach [⟨[], callback⟩] := .step .start (.start hc)
  have h2 : Reach [⟨[.action 0], callback.tail⟩] :=
    .step h1 (.acquire (pre := []) (post := []) (by simp))
  exact .step h2 (.start hc)

/-- The theorems speak of this state: the second thread cannot go on, the first can. -/
example : ¬ Deadlocked twoCallbacks ∧ (∃ t ∈ twoCallbacks, CanMove twoCallbacks t) ∧
    ¬ CanMove twoCallbacks ⟨[], callback⟩ := by
  refine ⟨C209_no_deadlock twoCallbacks_reached (fun _ h => h),
    (C209_progress twoCallbacks_reached).2 ⟨⟨[], callback⟩, by simp [twoCallbacks],
      by simp [callback], by simp [WaitsElsewhere, callback]⟩, ?_⟩
  rintro (⟨l, r, h⟩ | ⟨l, ⟨r, h⟩, hf⟩)
  · simp [callback] at h
  · simp only [callback, List.cons.injEq, Op.acquire.injEq] at h
    have := hf ⟨[.action 0], callback.tail⟩ (by simp [twoCallbacks])
    exact this (by simp [← h.1])

/-- A thread that waits: the main thread of an engine whose list has no action that can start. -/
example : ∃ s t, Reach s ∧ t ∈ s ∧ WaitsElsewhere t ∧ t.held = [] := by
  have h : Reach ([] ++ [⟨[], _⟩]) := .step .start (.start (.main (e := 0) (l := 0)
    (.runActionList .no (.next (.round .done .done) .done) .done .done .no .no .no)))
  exact ⟨_, _, h, List.mem_singleton.2 rfl, ⟨_, rfl⟩, rfl⟩

end Distbench.Locks
