import Verif.Spec.Deploy

/-! Property theorems C305-C307, C309: deploying to a cluster. -/

namespace Distbench
open Deploy Spec

namespace Deploy

theorem hasLo_iff (s : Str) : hasLo s = true ↔ NamesLo s := by
  induction s with
  | nil => simp [hasLo, NamesLo]
  | cons c rest ih =>
    simp only [hasLo, Bool.or_eq_true, Bool.and_eq_true, beq_iff_eq, ih]
    constructor
    · rintro (⟨rfl, h⟩ | ⟨a, b, rfl⟩)
      · cases rest with
        | nil => simp at h
        | cons d r => simp at h; subst h; exact ⟨[], r, rfl⟩
      · exact ⟨c :: a, b, rfl⟩
    · rintro ⟨a, b, h⟩
      cases a with
      | nil => simp at h; obtain ⟨rfl, rfl⟩ := h; left; simp
      | cons x a => simp at h; obtain ⟨rfl, rfl⟩ := h; right; exact ⟨a, b, by simp⟩

theorem linkLocal_iff (a : Str) : a.take 4 = "fe80".toList ↔ LinkLocal a := by
  constructor
  · intro h; exact ⟨a.drop 4, by rw [← h, List.take_append_drop]⟩
  · rintro ⟨r, rfl⟩; rfl

theorem dropWhile_split (s : Str) (h : '@' ∈ s) :
    ∃ t r, s = t ++ '@' :: r ∧ '@' ∉ t ∧ s.dropWhile (· ≠ '@') = '@' :: r := by
  induction s with
  | nil => simp at h
  | cons c s ih =>
    by_cases hc : c = '@'
    · subst hc; exact ⟨[], s, rfl, by simp, by simp⟩
    · have h' : '@' ∈ s := by
        rcases List.mem_cons.1 h with h | h
        · exact absurd h.symm hc
        · exact h
      obtain ⟨t, r, h1, h2, h3⟩ := ih h'
      refine ⟨c :: t, r, by rw [h1]; rfl, ?_, ?_⟩
      · simp only [List.mem_cons, not_or]; exact ⟨fun e => hc e.symm, h2⟩
      · rw [List.dropWhile_cons_of_pos (by simpa using hc), h3]

theorem strip_base (s : Str) : BaseName s (strip s) := by
  unfold strip
  by_cases h : '@' ∈ s
  · rw [if_pos h]
    obtain ⟨t, r, h1, h2, h3⟩ := dropWhile_split s.reverse (by simpa using h)
    rw [h3]
    refine Or.inr ⟨t.reverse, ?_, by simpa using h2⟩
    have := congrArg List.reverse h1
    simpa using this
  · rw [if_neg h]; exact Or.inl ⟨rfl, h⟩

theorem split_unique {a b s t : Str} (ha : '@' ∉ s) (hb : '@' ∉ t)
    (h : a ++ '@' :: s = b ++ '@' :: t) : a = b := by
  induction a generalizing b with
  | nil =>
    cases b with
    | nil => rfl
    | cons y b => simp at h; exact absurd (by rw [h.2]; simp) ha
  | cons x a ih =>
    cases b with
    | nil => simp at h; exact absurd (by rw [← h.2]; simp) hb
    | cons y b => simp at h; rw [h.1, ih h.2]

theorem base_unique {s a b : Str} (ha : BaseName s a) (hb : BaseName s b) : a = b := by
  rcases ha with ⟨rfl, ha⟩ | ⟨t, rfl, ha⟩
  · rcases hb with ⟨rfl, _⟩ | ⟨u, rfl, _⟩
    · rfl
    · simp at ha
  · rcases hb with ⟨rfl, hb⟩ | ⟨u, h, hb⟩
    · simp at hb
    · exact split_unique ha hb h

theorem usable_iff (d : Netdev) (ip : Str) : usable d = (ip, true) ↔ HasAddress d ip := by
  unfold usable HasAddress
  rw [← linkLocal_iff]
  by_cases h : d.v6.take 4 = "fe80".toList
  · simp only [h, if_true]
    by_cases h4 : d.v4 = []
    · simp [h4]
    · simp [h4, eq_comm]
  · simp only [h, if_false]
    by_cases h6 : d.v6 = []
    · by_cases h4 : d.v4 = []
      · simp [h4, h6]
      · simp [h4, h6, eq_comm]
    · simp [h6, eq_comm]

theorem usable_false (d : Netdev) (ip : Str) (h : usable d = (ip, false)) : ip = [] := by
  unfold usable at h
  simp only at h
  generalize (if d.v6.take 4 = "fe80".toList then [] else d.v6) = v6 at h
  by_cases h1 : d.v4 = [] ∧ v6 = []
  · rw [if_pos h1] at h
    exact (Prod.mk.inj h).1.symm
  · rw [if_neg h1] at h
    split at h <;> cases h

theorem address_ne {d : Netdev} {ip : Str} (h : HasAddress d ip) : ip ≠ [] := by
  rcases h with ⟨_, _, rfl⟩ | ⟨_, h, rfl⟩
  · simp
  · exact h

theorem checked_ok {c : Choice} {dev ip : Str} :
    checked c = .ok dev ip ↔ c.device = dev ∧ c.ip = some ip ∧ ip ≠ [] := by
  obtain ⟨d, i⟩ := c
  rcases i with _ | (_ | ⟨x, i⟩)
  · simp [checked]
  · simp only [checked]; constructor
    · intro h; cases h
    · rintro ⟨_, h, h'⟩; simp at h; exact absurd h h'
  · simp only [checked, Picked.ok.injEq, Option.some.injEq]; constructor
    · rintro ⟨rfl, rfl⟩; simp
    · rintro ⟨h1, h2, _⟩; exact ⟨h1, h2⟩

/-- The first private device with an address. -/
def FirstOf (l : List Netdev) (dev ip : Str) : Prop :=
  ∃ pre d post, l = pre ++ d :: post ∧
    (∀ x ∈ pre, ¬ (x.isPublic = false ∧ ∃ ip, HasAddress x ip)) ∧
    d.isPublic = false ∧ HasAddress d ip ∧ BaseName d.listed dev

theorem firstOf_skip {d : Netdev} {l : List Netdev} {dev ip : Str}
    (h : ¬ (d.isPublic = false ∧ ∃ ip, HasAddress d ip)) :
    FirstOf (d :: l) dev ip ↔ FirstOf l dev ip := by
  constructor
  · rintro ⟨pre, e, post, h1, h2, h3, h4, h5⟩
    cases pre with
    | nil => simp at h1; rw [h1.1] at h; exact absurd ⟨h3, ip, h4⟩ h
    | cons x pre =>
      simp at h1
      exact ⟨pre, e, post, h1.2, fun y hy => h2 y (List.mem_cons_of_mem _ hy), h3, h4, h5⟩
  · rintro ⟨pre, e, post, h1, h2, h3⟩
    refine ⟨d :: pre, e, post, by rw [h1]; rfl, ?_, h3⟩
    intro y hy
    rcases List.mem_cons.1 hy with rfl | hy
    · exact h
    · exact h2 y hy

theorem try_iff (l : List Netdev) (c : Choice) (hc : c.ip = none ∨ c.ip = some [])
    (dev ip : Str) : checked (tryDevices l c) = .ok dev ip ↔ FirstOf l dev ip := by
  induction l generalizing c with
  | nil =>
    rw [tryDevices, checked_ok]
    constructor
    · rintro ⟨_, h2, h3⟩
      rcases hc with hc | hc <;> rw [hc] at h2 <;> simp at h2
      exact absurd h2 h3
    · rintro ⟨pre, e, post, h, _⟩; simp at h
  | cons d l ih =>
    rw [tryDevices]
    by_cases hp : d.isPublic = true
    · rw [if_pos hp, ih c hc, firstOf_skip (by simp [hp])]
    · have hp' : d.isPublic = false := by simpa using hp
      rw [if_neg hp]
      rcases hu : usable d with ⟨i, _ | _⟩
      · simp only
        have hi := usable_false d i hu
        rw [ih _ (Or.inr (by rw [hi])), firstOf_skip]
        rintro ⟨_, j, hj⟩
        rw [← usable_iff, hu] at hj
        simp at hj
      · simp only
        have ha := (usable_iff d i).1 hu
        rw [checked_ok]
        constructor
        · rintro ⟨h1, h2, _⟩
          simp at h1 h2
          subst h1 h2
          exact ⟨[], d, l, rfl, by simp, hp', ha, strip_base _⟩
        · rintro ⟨pre, e, post, h1, h2, h3, h4, h5⟩
          cases pre with
          | nil =>
            simp at h1
            obtain ⟨rfl, rfl⟩ := h1
            have h6 := (usable_iff d ip).2 h4
            rw [hu] at h6
            simp at h6
            subst h6
            exact ⟨base_unique (strip_base _) h5, rfl, address_ne ha⟩
          | cons x pre =>
            simp at h1
            exact absurd ⟨hp', i, ha⟩ (h1.1 ▸ h2 x (by simp))

theorem first_filter (l : List Netdev) (dev ip : Str) :
    FirstOf (l.filter fun d => !hasLo d.listed) dev ip ↔
      ∃ pre d post, l = pre ++ d :: post ∧ (∀ x ∈ pre, ¬ Candidate x) ∧ Candidate d ∧
        HasAddress d ip ∧ BaseName d.listed dev := by
  induction l with
  | nil =>
    constructor
    · rintro ⟨pre, e, post, h, _⟩; simp at h
    · rintro ⟨pre, e, post, h, _⟩; simp at h
  | cons d l ih =>
    have skip : ¬ Candidate d → ((∃ pre e post, l = pre ++ e :: post ∧ (∀ x ∈ pre, ¬ Candidate x) ∧
        Candidate e ∧ HasAddress e ip ∧ BaseName e.listed dev) ↔
        ∃ pre e post, d :: l = pre ++ e :: post ∧ (∀ x ∈ pre, ¬ Candidate x) ∧
        Candidate e ∧ HasAddress e ip ∧ BaseName e.listed dev) := by
      intro hd
      constructor
      · rintro ⟨pre, e, post, h1, h2, h3⟩
        refine ⟨d :: pre, e, post, by rw [h1]; rfl, ?_, h3⟩
        intro y hy
        rcases List.mem_cons.1 hy with rfl | hy
        · exact hd
        · exact h2 y hy
      · rintro ⟨pre, e, post, h1, h2, h3, h4⟩
        cases pre with
        | nil => simp at h1; rw [h1.1] at hd; exact absurd h3 hd
        | cons x pre =>
          simp at h1
          exact ⟨pre, e, post, h1.2, fun y hy => h2 y (List.mem_cons_of_mem _ hy), h3, h4⟩
    by_cases hl : hasLo d.listed = true
    · rw [List.filter_cons_of_neg (by simp [hl]), ih]
      exact skip fun h => h.1 ((hasLo_iff _).1 hl)
    · have hl' : ¬ NamesLo d.listed := fun h => hl ((hasLo_iff _).2 h)
      rw [List.filter_cons_of_pos (by simpa using hl)]
      by_cases hc : d.isPublic = false ∧ ∃ ip, HasAddress d ip
      · constructor
        · rintro ⟨pre, e, post, h1, h2, h3, h4, h5⟩
          cases pre with
          | nil =>
            simp at h1
            obtain ⟨rfl, _⟩ := h1
            exact ⟨[], d, l, rfl, by simp, ⟨hl', hc⟩, h4, h5⟩
          | cons x pre => simp at h1; exact absurd hc (h1.1 ▸ h2 x (by simp))
        · rintro ⟨pre, e, post, h1, h2, h3, h4, h5⟩
          cases pre with
          | nil =>
            simp at h1
            obtain ⟨rfl, _⟩ := h1
            exact ⟨[], d, _, rfl, by simp, hc.1, h4, h5⟩
          | cons x pre => simp at h1; exact absurd ⟨hl', hc⟩ (h1.1 ▸ h2 x (by simp))
      · rw [firstOf_skip hc, ih]
        exact skip fun h => hc h.2

/-- C305, as far as it holds: if no device is named, and the environment has no SEQUENCER_IP, the
device used is the first listed that is private, has an address and has no `lo` in its name; the
sequencer's address is that device's; and without such a device the deployment fails. -/
theorem C305_first_partial (devices : List Netdev) (dev ip : Str) :
    pick [] none devices = .ok dev ip ↔
      ∃ pre d post, devices = pre ++ d :: post ∧ (∀ x ∈ pre, ¬ Candidate x) ∧ Candidate d ∧
        HasAddress d ip ∧ BaseName d.listed dev := by
  rw [← first_filter]
  unfold pick
  rw [if_neg (by simp)]
  simp only
  split
  · rename_i h
    rw [h]
    constructor
    · intro h; cases h
    · rintro ⟨pre, e, post, h, _⟩; simp at h
  · exact try_iff _ _ (Or.inl rfl) _ _

example : pick [] none
    [⟨"lo".toList, false, "127.0.0.1".toList, "::1".toList⟩,
     ⟨"eno1".toList, true, "128.1.1.1".toList, []⟩,
     ⟨"eth1".toList, false, [], "fe80::2".toList⟩,
     ⟨"vlan384@eth1".toList, false, "10.0.0.1".toList, "fe80::1".toList⟩] =
    .ok "vlan384".toList "10.0.0.1".toList := by decide

/-- C305 is false of the code: a device that is named is never used, because then the address of the
sequencer is not determined. -/
theorem C305_named_negation (name : Str) (h : name ≠ []) (devices : List Netdev) :
    ∀ dev ip, pick name none devices ≠ .ok dev ip := by
  intro dev ip h'
  unfold pick at h'
  rw [if_pos h, checked_ok] at h'
  simp at h'

example : pick "eth1".toList none [⟨"eth1".toList, false, "10.0.0.1".toList, []⟩] = .notSet := by
  decide

/-- C305 is false of the code: a private device with an address is passed over because its name has
the letters of the loopback in it. -/
theorem C305_lo_negation : ∃ d : Netdev, d.listed ≠ "lo".toList ∧ d.isPublic = false ∧
    HasAddress d "10.0.0.1".toList ∧ pick [] none [d] = .noDevices :=
  ⟨⟨"flow0".toList, false, "10.0.0.1".toList, []⟩, by decide, rfl,
    Or.inr ⟨Or.inl rfl, by decide, rfl⟩, by decide⟩

theorem managers_mem (port i n : Nat) (a : Act) : a ∈ startManagers port i n ↔
    ∃ k, k < n ∧ a = .nodeManager (i + k) (i + k) (port + k) := by
  induction n generalizing port i with
  | zero => simp [startManagers]
  | succ n ih =>
    rw [startManagers, List.mem_cons, ih]
    constructor
    · rintro (rfl | ⟨k, hk, rfl⟩)
      · exact ⟨0, by omega, rfl⟩
      · exact ⟨k + 1, by omega, by simp only [Act.nodeManager.injEq]; omega⟩
    · rintro ⟨k, hk, rfl⟩
      cases k with
      | zero => exact Or.inl rfl
      | succ k => exact Or.inr ⟨k, by omega, by simp only [Act.nodeManager.injEq]; omega⟩

theorem managers_nodup (port i n : Nat) : (startManagers port i n).Nodup := by
  induction n generalizing port i with
  | zero => simp [startManagers]
  | succ n ih =>
    rw [startManagers, List.nodup_cons]
    refine ⟨?_, ih _ _⟩
    rw [managers_mem]
    rintro ⟨k, _, h⟩
    simp only [Act.nodeManager.injEq] at h
    omega

theorem launch_mem (n : Nat) (a : Act) : a ∈ launch n ↔
    (∃ i, i < n ∧ a = .kill i) ∨ (∃ i, (i = 0 ∨ i < n) ∧ a = .binary i) ∨
    a = .sequencer 0 10000 ∨ ∃ i, i < n ∧ a = .nodeManager i i (9000 + i) := by
  simp only [launch, List.mem_append, List.mem_cons, List.mem_map, List.mem_range, managers_mem,
    Nat.zero_add]
  constructor
  · rintro ((⟨i, h, rfl⟩ | rfl | ⟨i, h, rfl⟩) | rfl | h)
    · exact Or.inl ⟨i, h, rfl⟩
    · exact Or.inr (Or.inl ⟨0, Or.inl rfl, rfl⟩)
    · exact Or.inr (Or.inl ⟨i + 1, Or.inr (by omega), rfl⟩)
    · exact Or.inr (Or.inr (Or.inl rfl))
    · exact Or.inr (Or.inr (Or.inr h))
  · rintro (⟨i, h, rfl⟩ | ⟨i, h, rfl⟩ | rfl | h)
    · exact Or.inl (Or.inl ⟨i, h, rfl⟩)
    · cases i with
      | zero => exact Or.inl (Or.inr (Or.inl rfl))
      | succ i => exact Or.inl (Or.inr (Or.inr ⟨i, by omega, rfl⟩))
    · exact Or.inr (Or.inl rfl)
    · exact Or.inr (Or.inr h)

/-- C306: on a cluster of `n` nodes a node manager is started on each of the nodes, with the alias of
its node and a port of its own, and on no other; one sequencer is started, on the first node. -/
theorem C306_started (n : Nat) :
    (∀ i alias port, Act.nodeManager i alias port ∈ launch n ↔
      i < n ∧ alias = i ∧ port = 9000 + i) ∧
    (∀ i port, Act.sequencer i port ∈ launch n ↔ i = 0 ∧ port = 10000) ∧
    (launch n).Nodup := by
  refine ⟨?_, ?_, ?_⟩
  · intro i al port
    rw [launch_mem]
    constructor
    · rintro (⟨_, _, h⟩ | ⟨_, _, h⟩ | h | ⟨k, hk, h⟩) <;> cases h
      exact ⟨hk, rfl, rfl⟩
    · rintro ⟨h, rfl, rfl⟩; exact Or.inr (Or.inr (Or.inr ⟨_, h, rfl⟩))
  · intro i port
    rw [launch_mem]
    constructor
    · rintro (⟨_, _, h⟩ | ⟨_, _, h⟩ | h | ⟨k, hk, h⟩) <;> cases h
      exact ⟨rfl, rfl⟩
    · rintro ⟨rfl, rfl⟩; exact Or.inr (Or.inr (Or.inl rfl))
  · unfold launch
    rw [List.nodup_append, List.nodup_append, List.nodup_cons, List.nodup_cons]
    refine ⟨⟨?_, ⟨by simp, ?_⟩, ?_⟩, ⟨by simp [managers_mem], managers_nodup _ _ _⟩, ?_⟩
    · exact List.Pairwise.map _ (fun a b h e => h (by cases e; rfl)) List.nodup_range
    · exact List.Pairwise.map _ (fun a b h e => h (by cases e; rfl)) List.nodup_range
    · intro a ha b hb e
      subst e
      simp at ha hb
      obtain ⟨i, _, rfl⟩ := ha
      simp at hb
    · intro a ha b hb e
      subst e
      simp [managers_mem] at ha hb
      rcases hb with rfl | ⟨k, _, rfl⟩ <;> simp at ha

/-- C306: before anything is started on a node, what ran there is ended and the program is copied
there, in this order. -/
theorem C306_order (n : Nat) :
    (launch n).Pairwise (fun a b => stage a ≤ stage b) ∧
    (∀ i, Act.kill i ∈ launch n ↔ i < n) ∧ ∀ i, i < n → Act.binary i ∈ launch n := by
  refine ⟨?_, ?_, ?_⟩
  · have const : ∀ (l : List Act) (k : Nat), (∀ a ∈ l, stage a = k) →
        l.Pairwise fun a b => stage a ≤ stage b := by
      intro l k h
      exact List.pairwise_of_forall_mem_list fun a ha b hb => by rw [h a ha, h b hb]; exact Nat.le_refl _
    have hm : ∀ a ∈ startManagers 9000 0 n, stage a = 3 := by
      intro a ha; rw [managers_mem] at ha; obtain ⟨k, _, rfl⟩ := ha; rfl
    unfold launch
    rw [List.pairwise_append, List.pairwise_append]
    have hk : ∀ a ∈ (List.range n).map Act.kill, stage a = 0 := by
      intro a ha; simp at ha; obtain ⟨i, _, rfl⟩ := ha; rfl
    have hb : ∀ a ∈ Act.binary 0 :: (List.range (n - 1)).map (fun i => Act.binary (i + 1)),
        stage a = 1 := by
      intro a ha; simp at ha; rcases ha with rfl | ⟨i, _, rfl⟩ <;> rfl
    refine ⟨⟨const _ 0 hk, const _ 1 hb, ?_⟩, List.pairwise_cons.2 ⟨?_, const _ 3 hm⟩, ?_⟩
    · intro a ha b hb'; rw [hk a ha]; exact Nat.zero_le _
    · intro a ha; rw [hm a ha]; decide
    · intro a ha b hb'
      have h1 : stage a ≤ 1 := by
        rcases List.mem_append.1 ha with h | h
        · rw [hk a h]; decide
        · rw [hb a h]; exact Nat.le_refl _
      have h2 : 2 ≤ stage b := by
        rcases List.mem_cons.1 hb' with rfl | h
        · decide
        · rw [hm b h]; decide
      omega
  · intro i
    rw [launch_mem]
    constructor
    · rintro (⟨_, hk, h⟩ | ⟨_, _, h⟩ | h | ⟨k, hk, h⟩) <;> cases h
      exact hk
    · intro h; exact Or.inl ⟨i, h, rfl⟩
  · intro i h
    rw [launch_mem]
    exact Or.inr (Or.inl ⟨i, Or.inr h, rfl⟩)

example : launch 2 = [.kill 0, .kill 1, .binary 0, .binary 1, .sequencer 0 10000,
    .nodeManager 0 0 9000, .nodeManager 1 1 9001] := by decide

theorem source_local {repo : Str} (h : LocalAsked repo) (branch : Str) (s : Source)
    (mirror : List (Str × Files)) : source repo branch s mirror =
      if unchanged s then .mirrored (push s.branches mirror) (if branch = [] then s.current else branch)
      else .refused := by
  rcases h with rfl | rfl
  · rfl
  · rfl

theorem push_lookup (branches mirror : List (Str × Files)) (name : Str) :
    (push branches mirror).lookup name = (branches.lookup name).or (mirror.lookup name) := by
  have filtered : branches.lookup name = none → ∀ l : List (Str × Files),
      (l.filter fun b => (branches.lookup b.1).isNone).lookup name = l.lookup name := by
    intro hn l
    induction l with
    | nil => rfl
    | cons b l ih =>
      obtain ⟨k, f⟩ := b
      by_cases hk : name = k
      · subst hk
        rw [List.filter_cons_of_pos (by simp [hn])]
        simp [List.lookup_cons]
      · have hk' : (name == k) = false := by simpa using hk
        rw [List.lookup_cons, hk']
        by_cases hb : (branches.lookup k).isNone = true
        · rw [List.filter_cons_of_pos (by simpa using hb), List.lookup_cons, hk']
          exact ih
        · rw [List.filter_cons_of_neg (by simpa using hb)]
          exact ih
  unfold push
  rw [List.lookup_append]
  cases h : branches.lookup name with
  | none => rw [filtered h]
  | some f => rfl

/-- C307, as far as it holds: if nothing is staged that is not committed, then what is deployed from the
local repository is the branch that is checked out, with all tracked files, as they are in the working
tree. -/
theorem C307_tree_partial {repo : Str} (hr : LocalAsked repo) {s : Source}
    {mirror m : List (Str × Files)} {branch : Str}
    (staged : s.branches.lookup s.current = some s.index)
    (h : source repo [] s mirror = .mirrored m branch) :
    branch = s.current ∧ ∃ files, m.lookup branch = some files ∧
      (∀ e, e ∈ files ↔ e ∈ s.index) ∧ ∀ e ∈ files, s.work.lookup e.1 = some e.2 := by
  rw [source_local hr] at h
  by_cases hu : unchanged s = true
  · rw [if_pos hu, if_pos rfl, Sourced.mirrored.injEq] at h
    obtain ⟨rfl, rfl⟩ := h
    refine ⟨rfl, s.index, by rw [push_lookup, staged]; rfl, fun e => Iff.rfl, ?_⟩
    intro e he
    have := List.all_eq_true.1 hu e he
    simpa using this
  · rw [if_neg hu] at h
    cases h

/-- C307: with a tracked file in the working tree that is changed, or is gone, and not staged, the
deployment is refused, whatever the branch. -/
theorem C307_refused {repo : Str} (hr : LocalAsked repo) (branch : Str) {s : Source} {e : Str × Str}
    (he : e ∈ s.index) (hw : s.work.lookup e.1 ≠ some e.2) (mirror : List (Str × Files)) :
    source repo branch s mirror = .refused := by
  rw [source_local hr, if_neg]
  intro hu
  have := List.all_eq_true.1 hu e he
  exact hw (by simpa using this)

/-- C307: otherwise it is not refused; with localnocheck it never is. -/
theorem C307_accepted {repo : Str} (branch : Str) {s : Source}
    (h : repo = "localnocheck".toList ∨
      LocalAsked repo ∧ ∀ e ∈ s.index, s.work.lookup e.1 = some e.2)
    (mirror : List (Str × Files)) : ∃ m, source repo branch s mirror =
      .mirrored m (if branch = [] then s.current else branch) := by
  rcases h with rfl | ⟨hr, h⟩
  · exact ⟨_, rfl⟩
  · rw [source_local hr, if_pos]
    · exact ⟨_, rfl⟩
    · exact List.all_eq_true.2 fun e he => by simpa using h e he

/-- C307: afterwards each branch of the local repository is in the mirror as it is committed, whatever
the mirror had; branches that only the mirror has stay. -/
theorem C307_mirror {repo branch b : Str} {s : Source} {mirror m : List (Str × Files)}
    (h : source repo branch s mirror = .mirrored m b) (name : Str) :
    (∀ files, s.branches.lookup name = some files → m.lookup name = some files) ∧
    (s.branches.lookup name = none → m.lookup name = mirror.lookup name) := by
  have hm : m = push s.branches mirror := by
    unfold source at h
    simp only at h
    by_cases h1 : (if repo = [] then "local".toList else repo) = "localnocheck".toList
    · rw [if_pos h1] at h; cases h; rfl
    · rw [if_neg h1] at h
      by_cases h2 : (if repo = [] then "local".toList else repo) = "local".toList
      · rw [if_pos h2] at h
        by_cases h3 : unchanged s = true
        · rw [if_pos h3] at h; cases h; rfl
        · rw [if_neg h3] at h; cases h
      · rw [if_neg h2] at h; cases h
  rw [hm, push_lookup]
  refine ⟨fun f hf => by rw [hf]; rfl, fun hn => by rw [hn]; rfl⟩

/-- A change that is staged and not committed. -/
def stagedSource : Source :=
  ⟨[("main".toList, [("a.cc".toList, "old".toList)]), ("x".toList, [])], "main".toList,
    [("a.cc".toList, "new".toList)], [("a.cc".toList, "new".toList)]⟩

/-- C307 is false of the code: a change that is staged passes the check for uncommitted changes, and the
version without it is deployed. -/
theorem C307_staged_negation : ∃ m, source [] [] stagedSource [] = .mirrored m "main".toList ∧
    m.lookup "main".toList = some [("a.cc".toList, "old".toList)] ∧
    stagedSource.work.lookup "a.cc".toList = some "new".toList :=
  ⟨stagedSource.branches, by decide, by decide, by decide⟩

/-- A tree in which everything is committed. -/
def cleanSource : Source := { stagedSource with
  index := [("a.cc".toList, "old".toList)]
  work := [("a.cc".toList, "old".toList), ("notes".toList, "mine".toList)] }

example : cleanSource.branches.lookup cleanSource.current = some cleanSource.index ∧
    source "local".toList [] cleanSource [("main".toList, []), ("y".toList, [])] =
      .mirrored (cleanSource.branches ++ [("y".toList, [])]) "main".toList := by decide

example : source [] [] { cleanSource with work := [] } [] = .refused :=
  C307_refused (Or.inl rfl) [] (e := ("a.cc".toList, "old".toList)) (by decide) (by decide) []

/-- C309: a number of nodes that is given is used exactly if the last of them answers. -/
theorem C309_asked {asked : Int} (h : 0 < asked) (hosts : List Str) (answers : Nat → Bool) (n : Nat) :
    nodesUsed asked hosts answers = some n ↔ (n : Int) = asked ∧ answers (n - 1) = true := by
  unfold nodesUsed
  rw [if_neg (by omega)]
  by_cases ha : answers (asked.toNat - 1) = true
  · rw [if_pos ha, Option.some.injEq]
    constructor
    · rintro rfl; exact ⟨by omega, ha⟩
    · rintro ⟨rfl, _⟩; rfl
  · rw [if_neg ha]
    constructor
    · intro e; cases e
    · rintro ⟨rfl, h'⟩; exact absurd h' ha

theorem lines_count {hosts : List Str} {n : Nat}
    (only : ∀ l ∈ hosts, l.take 2 = "10".toList → PrivateLine l) (h : LinesWith PrivateLine hosts n) :
    countNodes hosts = n := by
  induction h with
  | nil => rfl
  | @yes l ls n hp _ ih =>
    obtain ⟨r, rfl⟩ := hp
    have := ih fun l hl => only l (List.mem_cons_of_mem _ hl)
    unfold countNodes at this ⊢
    rw [List.countP_cons_of_pos (by rfl), this]
  | @no l ls n hp _ ih =>
    have := ih fun l hl => only l (List.mem_cons_of_mem _ hl)
    unfold countNodes at this ⊢
    rw [List.countP_cons_of_neg, this]
    simp only [decide_eq_true_eq]
    exact fun e => hp (only l (List.mem_cons_self ..) e)

/-- C309, as far as it holds: without a number, as many nodes are used as there are lines with an address of
the network 10, provided that no other address begins with 10; if there are none, then the deployment
fails. -/
theorem C309_counted_partial {asked : Int} (h : asked ≤ 0) {hosts : List Str} {n : Nat}
    (only : ∀ l ∈ hosts, l.take 2 = "10".toList → PrivateLine l) (hn : LinesWith PrivateLine hosts n)
    (answers : Nat → Bool) :
    nodesUsed asked hosts answers = if n = 0 then none else some n := by
  unfold nodesUsed
  rw [if_pos h, lines_count only hn]

example : nodesUsed 0 ["127.0.0.1 localhost".toList, "10.0.1.1 node0".toList, "10.0.1.2 node1".toList]
    (fun _ => true) = some 2 ∧ nodesUsed 3 [] (fun i => i = 2) = some 3 ∧
    nodesUsed 3 [] (fun i => i = 1) = none := by decide

/-- C309 is false of the code: a line with another address, such as 100.64.0.1, is counted as a node. -/
theorem C309_other_negation : ∃ hosts, LinesWith PrivateLine hosts 1 ∧
    nodesUsed 0 hosts (fun _ => true) = some 2 := by
  refine ⟨["10.0.1.1 node0".toList, "100.64.0.1 gw".toList], .yes ⟨"0.1.1 node0".toList, rfl⟩ (.no ?_ .nil),
    by decide⟩
  rintro ⟨r, h⟩
  have := congrArg (List.take 3) h
  revert this
  simp

end Deploy
end Distbench
