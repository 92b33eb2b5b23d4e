import Verif.Spec.Logs

namespace Distbench.Logs
open Sampling Spec

theorem lookup_upd {κ α : Type} [DecidableEq κ] [BEq κ] [LawfulBEq κ] (k : κ) (new : α) (f : α → α) (k' : κ) :
    ∀ (m : List (κ × α)), (upd k new f m).lookup k' =
      if k' = k then some (f ((m.lookup k).getD new)) else m.lookup k' := by
  intro m
  induction m with
  | nil =>
    simp only [upd, List.lookup_cons, List.lookup_nil]
    by_cases h : k' = k
    · simp [h]
    · have : (k' == k) = false := by simp [h]
      rw [this, if_neg h]
  | cons e l ih =>
    obtain ⟨a, v⟩ := e
    unfold upd
    by_cases ha : a = k
    · subst ha
      rw [if_pos rfl]
      simp only [List.lookup_cons]
      by_cases h : k' = a
      · subst h; simp
      · have : (k' == a) = false := by simp [h]
        rw [this, if_neg h]
    · rw [if_neg ha]
      simp only [List.lookup_cons]
      by_cases h : k' = a
      · subst h
        simp [ha]
      · have h1 : (k' == a) = false := by simp [h]
        have h2 : (k == a) = false := by simp; exact fun e => ha e.symm
        rw [h1, h2]
        simp only []
        exact ih

theorem mem_keys_upd {κ α : Type} [DecidableEq κ] (k : κ) (new : α) (f : α → α) (k' : κ) :
    ∀ (m : List (κ × α)), k' ∈ (upd k new f m).map (·.1) ↔ k' = k ∨ k' ∈ m.map (·.1) := by
  intro m
  induction m with
  | nil => simp [upd]
  | cons e l ih =>
    obtain ⟨a, v⟩ := e
    unfold upd
    by_cases ha : a = k
    · subst ha; simp
    · rw [if_neg ha]
      simp only [List.map_cons, List.mem_cons, ih]
      grind

theorem nodup_upd {κ α : Type} [DecidableEq κ] (k : κ) (new : α) (f : α → α) :
    ∀ {m : List (κ × α)}, (m.map (·.1)).Nodup → ((upd k new f m).map (·.1)).Nodup := by
  intro m
  induction m with
  | nil => intro _; simp [upd]
  | cons e l ih =>
    obtain ⟨a, v⟩ := e
    intro h
    unfold upd
    by_cases ha : a = k
    · rw [if_pos ha]; exact h
    · rw [if_neg ha]
      simp only [List.map_cons, List.nodup_cons] at h ⊢
      refine ⟨?_, ih h.2⟩
      rw [mem_keys_upd]
      rintro (h' | h')
      · exact ha h'
      · exact h.1 h'

/-- The samples for an RPC in the log of one peer. -/
def inPeer (p : PeerLog) (rpc : Nat) (success : Bool) : List Sample :=
  match p.lookup rpc with
  | none => []
  | some l => if success then l.successful else l.failed

def pick (l : RpcLog) (success : Bool) : List Sample := if success then l.successful else l.failed

theorem inPeer_eq (p : PeerLog) (rpc : Nat) (success : Bool) :
    inPeer p rpc success = pick ((p.lookup rpc).getD noLog) success := by
  unfold inPeer pick
  cases p.lookup rpc with
  | none => simp [noLog]
  | some l => rfl

theorem found_eq (log : List (Str × PeerLog)) (name : Str) (rpc : Nat) (success : Bool) :
    found log name rpc success = inPeer ((log.lookup name).getD []) rpc success := by
  unfold found inPeer
  cases log.lookup name with
  | none => rfl
  | some l => rfl

/-! ### one run -/

theorem filed_cons (e : Key × Sample) (l : List (Key × Sample)) (k : Key) :
    filed (e :: l) k = (if e.1 = k then [e.2] else []) ++ filed l k := by
  unfold filed
  rw [List.filter_cons]
  split <;> rename_i h <;> simp at h <;> simp [h]

theorem runLogs_foldl (report : List (Key × Sample)) : ∀ (logs : Nat → Nat → PeerLog),
    (∀ i j, ((logs i j).map (·.1)).Nodup) →
    (∀ i j, (((report.foldl addSample logs) i j).map (·.1)).Nodup) ∧
    ∀ i j rpc success, inPeer ((report.foldl addSample logs) i j) rpc success =
      inPeer (logs i j) rpc success ++ filed report ⟨i, j, rpc, success⟩ := by
  induction report with
  | nil => intro logs h; exact ⟨h, fun i j rpc success => by simp [filed]⟩
  | cons e l ih =>
    intro logs h
    rw [List.foldl_cons]
    have hn : ∀ i j, ((addSample logs e i j).map (·.1)).Nodup := by
      intro i j
      unfold addSample
      split
      · exact nodup_upd _ _ _ (h i j)
      · exact h i j
    obtain ⟨g1, g2⟩ := ih _ hn
    refine ⟨g1, fun i j rpc success => ?_⟩
    rw [g2, filed_cons, ← List.append_assoc]
    congr 1
    obtain ⟨⟨ks, ki, kr, kb⟩, x⟩ := e
    unfold addSample
    simp only []
    by_cases hij : i = ks ∧ j = ki
    · obtain ⟨rfl, rfl⟩ := hij
      rw [if_pos ⟨rfl, rfl⟩, inPeer_eq, inPeer_eq, lookup_upd]
      by_cases hr : rpc = kr
      · subst hr
        rw [if_pos rfl, Option.getD_some]
        cases kb <;> cases success <;> simp [pick]
      · rw [if_neg hr, if_neg (by simp; intro h; exact absurd h.symm hr)]
        simp
    · rw [if_neg hij, if_neg (by simp; intro a b; exact absurd ⟨a.symm, b.symm⟩ hij)]
      simp

theorem runLogs_ok (report : List (Key × Sample)) (i j : Nat) :
    ((runLogs report i j).map (·.1)).Nodup ∧
    ∀ rpc success, inPeer (runLogs report i j) rpc success = filed report ⟨i, j, rpc, success⟩ := by
  obtain ⟨g1, g2⟩ := runLogs_foldl report (fun _ _ => []) (fun _ _ => by simp)
  exact ⟨g1 i j, fun rpc success => by rw [runLogs, g2]; simp [inPeer]⟩

/-! ### all runs -/

def allIn (logs : List PeerLog) (rpc : Nat) (success : Bool) : List Sample :=
  logs.flatMap (fun p => inPeer p rpc success)

theorem mergeRuns_ok (reports : List (List (Key × Sample))) :
    ∀ (partials : Nat → Nat → List PeerLog),
      (∀ i j, ∀ p ∈ partials i j, (p.map (·.1)).Nodup) →
      (∀ i j, ∀ p ∈ (reports.foldl mergeRun partials) i j, (p.map (·.1)).Nodup) ∧
      ∀ i j rpc success, allIn ((reports.foldl mergeRun partials) i j) rpc success =
        allIn (partials i j) rpc success ++
          reports.flatMap (fun r => filed r ⟨i, j, rpc, success⟩) := by
  induction reports with
  | nil => intro partials h; exact ⟨h, by simp⟩
  | cons r l ih =>
    intro partials h
    rw [List.foldl_cons]
    obtain ⟨g1, g2⟩ := ih (mergeRun partials r) (by
      intro i j p hp
      unfold mergeRun at hp
      split at hp
      · exact h i j p hp
      · simp only [List.mem_append, List.mem_singleton] at hp
        rcases hp with hp | rfl
        · exact h i j p hp
        · exact (runLogs_ok r i j).1)
    refine ⟨g1, fun i j rpc success => ?_⟩
    rw [g2, List.flatMap_cons, ← List.append_assoc]
    congr 1
    rw [← (runLogs_ok r i j).2 rpc success]
    unfold mergeRun
    split
    · rename_i he
      simp only [List.isEmpty_iff] at he
      rw [he]; simp [inPeer]
    · simp [allIn]

/-! ### merging into the output -/

theorem pick_merge (l l' : RpcLog) (success : Bool) :
    pick (l.mergeFrom l') success = pick l success ++ pick l' success := by
  cases success <;> rfl

theorem found_mergeRpc (name : Str) (out : List (Str × PeerLog)) (e : Nat × RpcLog) (x : Str)
    (rpc : Nat) (success : Bool) : found (mergeRpc name out e) x rpc success =
      found out x rpc success ++ if name = x ∧ e.1 = rpc then pick e.2 success else [] := by
  unfold mergeRpc
  split
  · rename_i he
    simp only [Bool.and_eq_true, List.isEmpty_iff] at he
    have : pick e.2 success = [] := by cases success <;> simp [pick, he.1, he.2]
    rw [this]; simp
  · rw [found_eq, found_eq, lookup_upd]
    by_cases hx : x = name
    · subst hx
      rw [if_pos rfl, Option.getD_some, inPeer_eq, inPeer_eq, lookup_upd]
      by_cases hr : rpc = e.1
      · subst hr
        rw [if_pos rfl, if_pos ⟨rfl, rfl⟩, Option.getD_some, pick_merge]
      · rw [if_neg hr, if_neg (fun h => hr h.2.symm)]; simp
    · rw [if_neg hx, if_neg (fun h => hx h.1.symm)]; simp

theorem found_foldRpc (name x : Str) (rpc : Nat) (success : Bool) : ∀ (log : PeerLog)
    (out : List (Str × PeerLog)), (log.map (·.1)).Nodup →
    found (log.foldl (mergeRpc name) out) x rpc success =
      found out x rpc success ++ if name = x then inPeer log rpc success else [] := by
  intro log
  induction log with
  | nil => intro out _; simp [inPeer]
  | cons e l ih =>
    intro out h
    simp only [List.map_cons, List.nodup_cons] at h
    rw [List.foldl_cons, ih _ h.2, found_mergeRpc, List.append_assoc]
    congr 1
    by_cases hx : name = x
    · simp only [if_pos hx]
      rw [inPeer_eq (e :: l), List.lookup_cons]
      by_cases hr : e.1 = rpc
      · subst hr
        rw [if_pos ⟨hx, rfl⟩]
        have hl : l.lookup e.1 = none := by
          rw [List.lookup_eq_none_iff]
          intro p hp
          simp only [bne_iff_ne, ne_eq]
          intro he
          exact h.1 (List.mem_map.2 ⟨p, hp, he.symm⟩)
        simp [inPeer, hl]
      · rw [if_neg (fun h => hr h.2)]
        have : (rpc == e.1) = false := by simp; exact fun h => hr h.symm
        rw [this, inPeer_eq]
        simp
    · simp [hx]

theorem found_mergePeer (name x : Str) (rpc : Nat) (success : Bool) : ∀ (logs : List PeerLog)
    (out : List (Str × PeerLog)), (∀ p ∈ logs, (p.map (·.1)).Nodup) →
    found (mergePeer name out logs) x rpc success =
      found out x rpc success ++ if name = x then allIn logs rpc success else [] := by
  intro logs
  induction logs with
  | nil => intro out _; simp [mergePeer, allIn]
  | cons p l ih =>
    intro out h
    have hf : mergePeer name out (p :: l) = mergePeer name (p.foldl (mergeRpc name) out) l := rfl
    rw [hf, ih _ (fun q hq => h q (List.mem_cons_of_mem _ hq)),
      found_foldRpc _ _ _ _ _ _ (h p List.mem_cons_self), List.append_assoc]
    congr 1
    by_cases hx : name = x
    · simp [hx, allIn]
    · simp [hx]

theorem foldl_found {α : Type} (g : List (Str × PeerLog) → α → List (Str × PeerLog))
    (c : α → List Sample) (x : Str) (rpc : Nat) (success : Bool)
    : ∀ (l : List α), (∀ a ∈ l, ∀ out, found (g out a) x rpc success = found out x rpc success ++ c a) →
      ∀ (out : List (Str × PeerLog)),
      found (l.foldl g out) x rpc success = found out x rpc success ++ l.flatMap c := by
  intro l
  induction l with
  | nil => intro _ out; simp
  | cons a l ih =>
    intro h out
    rw [List.foldl_cons, ih (fun b hb => h b (List.mem_cons_of_mem _ hb)), h a List.mem_cons_self,
      List.append_assoc, List.flatMap_cons]

theorem found_getLogs (names : List (List Str)) (partials : Nat → Nat → List PeerLog)
    (h : ∀ i j, ∀ p ∈ partials i j, (p.map (·.1)).Nodup) (x : Str) (rpc : Nat) (success : Bool) :
    found (getLogs names partials) x rpc success =
      names.zipIdx.flatMap (fun row => row.1.zipIdx.flatMap (fun p =>
        if p.1 = x then allIn (partials row.2 p.2) rpc success else [])) := by
  unfold getLogs
  rw [foldl_found _ (fun row => row.1.zipIdx.flatMap (fun p =>
        if p.1 = x then allIn (partials row.2 p.2) rpc success else [])) x rpc success]
  · simp [found]
  · intro row _ out
    rw [foldl_found _ (fun p => if p.1 = x then allIn (partials row.2 p.2) rpc success else [])
      x rpc success]
    intro p _ out
    exact found_mergePeer p.1 x rpc success _ out (h row.2 p.2)

theorem flatMap_single {α β : Type} (f : α → List β) (a : α) : ∀ (l : List α), l.Nodup → a ∈ l →
    (∀ b ∈ l, b ≠ a → f b = []) → l.flatMap f = f a := by
  intro l
  induction l with
  | nil => intro _ h; simp at h
  | cons b l ih =>
    intro hn hm h
    rw [List.flatMap_cons]
    simp only [List.nodup_cons] at hn
    by_cases hb : b = a
    · subst hb
      have : l.flatMap f = [] := by
        rw [List.flatMap_eq_nil_iff]
        intro c hc
        exact h c (List.mem_cons_of_mem _ hc) (fun e => hn.1 (e ▸ hc))
      rw [this, List.append_nil]
    · rw [h b List.mem_cons_self hb, List.nil_append]
      refine ih hn.2 ?_ (fun c hc => h c (List.mem_cons_of_mem _ hc))
      rcases List.mem_cons.1 hm with e | e
      · exact absurd e.symm hb
      · exact e

theorem nodup_zipIdx {α : Type} (l : List α) : l.zipIdx.Nodup := by
  rw [List.nodup_iff_pairwise_ne, List.pairwise_iff_getElem]
  intro i j hi hj hij he
  rw [List.getElem_zipIdx, List.getElem_zipIdx] at he
  simp at he
  omega

end Distbench.Logs
