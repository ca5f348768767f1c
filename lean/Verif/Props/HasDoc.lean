import Verif.Model.HasDoc

/-!
# C61: Engine.HasDoc only reads
-/

namespace Riot.HasDoc

variable {P M : Type} {grow : Nat → Nat} {blank : P} {n : Nat}

theorem append_view (s : Eng P M) (sh : Nat) (h : sh < s.len) :
    (s.append grow blank).view sh = s.view sh := by
  unfold Eng.append Eng.view
  have hne : sh ≠ s.len := by omega
  split <;> simp [hne]

theorem append_maps (s : Eng P M) : (s.append grow blank).maps = s.maps := by
  unfold Eng.append; split <;> rfl

theorem append_busy (s : Eng P M) : (s.append grow blank).busy = s.busy := by
  unfold Eng.append; split <;> rfl

theorem append_len (s : Eng P M) : (s.append grow blank).len = s.len + 1 := by
  unfold Eng.append; split <;> rfl

theorem append_gen (s : Eng P M) : s.gen ≤ (s.append grow blank).gen := by
  unfold Eng.append; split <;> simp

theorem append_old (s : Eng P M) (g i : Nat) (hg : g ≤ s.gen) (hi : i < s.len) :
    (s.append grow blank).cells g i = s.cells g i := by
  unfold Eng.append
  have hne : i ≠ s.len := by omega
  split
  · simp [hne]
  · have : g ≠ s.gen + 1 := by omega
    simp [this]

theorem hasDocLoop_frame (p : M → Bool) (sh todo : Nat) (s : Eng P M) :
    ((s.hasDocLoop grow blank p sh todo).1).maps = s.maps ∧
    ((s.hasDocLoop grow blank p sh todo).1).busy = s.busy ∧
    s.len ≤ ((s.hasDocLoop grow blank p sh todo).1).len ∧
    s.gen ≤ ((s.hasDocLoop grow blank p sh todo).1).gen ∧
    (∀ x < s.len, ((s.hasDocLoop grow blank p sh todo).1).view x = s.view x) ∧
    (∀ g i, g ≤ s.gen → i < s.len →
      ((s.hasDocLoop grow blank p sh todo).1).cells g i = s.cells g i) := by
  induction todo generalizing sh s with
  | zero => exact ⟨rfl, rfl, le_refl _, le_refl _, fun _ _ => rfl, fun _ _ _ _ => rfl⟩
  | succ t ih =>
    simp only [Eng.hasDocLoop]
    split
    · refine ⟨append_maps s, append_busy s, by rw [append_len]; omega, append_gen s,
        fun x hx => append_view s x hx, fun g i hg hi => append_old s g i hg hi⟩
    · obtain ⟨a, b, c, d, e, f⟩ := ih (sh + 1) (s.append grow blank)
      rw [append_len] at c e f
      refine ⟨a.trans (append_maps s), b.trans (append_busy s), by omega,
        le_trans (append_gen s) d, ?_, ?_⟩
      · intro x hx
        rw [e x (by omega), append_view s x hx]
      · intro g i hg hi
        rw [f g i (le_trans hg (append_gen s)) (by omega), append_old s g i hg hi]

theorem hasDocLoop_result (p : M → Bool) (sh todo : Nat) (s : Eng P M) :
    (s.hasDocLoop grow blank p sh todo).2 = true ↔ ∃ x, sh ≤ x ∧ x < sh + todo ∧ p (s.maps x) = true := by
  induction todo generalizing sh s with
  | zero => simp [Eng.hasDocLoop]; intro x h1 h2; omega
  | succ t ih =>
    simp only [Eng.hasDocLoop, append_maps]
    split
    · rename_i h
      simp only [true_iff]
      exact ⟨sh, le_refl _, by omega, h⟩
    · rename_i h
      rw [ih]
      simp only [append_maps]
      constructor
      · rintro ⟨x, h1, h2, h3⟩; exact ⟨x, by omega, by omega, h3⟩
      · rintro ⟨x, h1, h2, h3⟩
        refine ⟨x, ?_, by omega, h3⟩
        rcases Nat.lt_or_ge sh x with h4 | h4
        · omega
        · have : x = sh := by omega
          subst this; exact absurd h3 h

/-- **C61** HasDoc answers whether one of the shards has the document, at every moment. -/
theorem C61_hasDoc_answer (p : M → Bool) (s : Eng P M) :
    (s.hasDoc grow blank n p).2 = true ↔ ∃ sh < n, p (s.maps sh) = true := by
  unfold Eng.hasDoc
  rw [hasDocLoop_result]
  constructor
  · rintro ⟨x, _, h2, h3⟩; exact ⟨x, by omega, h3⟩
  · rintro ⟨x, h2, h3⟩; exact ⟨x, Nat.zero_le _, by omega, h3⟩

/-- The calls of a history in which every worker call runs without a HasDoc in between. -/
inductive Call (P M : Type)
  | work (shard : Nat) (effect : P → M → P × M)
  | hasDoc (present : M → Bool)

/-- Its schedule. -/
def Call.acts : Call P M → List (Act P M)
  | .work sh f => [.enter sh, .leave sh f]
  | .hasDoc p => [.hasDoc p]

/-- What the work calls do to the shards: executed one after the other on a plain array. -/
def ideal (v : Nat → P × M) : List (Call P M) → Nat → P × M
  | [] => v
  | .work sh f :: cs => ideal (fun x => if x = sh then f (v sh).1 (v sh).2 else v x) cs
  | .hasDoc _ :: cs => ideal v cs

/-- No call in progress, the slice covers the shards, no mutex is held. -/
structure Quiet (n : Nat) (s : Eng P M) : Prop where
  len : n ≤ s.len
  busy : ∀ x, s.busy x = none
  unlocked : ∀ x < n, (s.cells s.gen x).locked = false

theorem init_quiet (maps : Nat → M) : Quiet n (Eng.init grow blank maps n) ∧
    (Eng.init grow blank maps n).len = n ∧
    ∀ x, (Eng.init grow blank maps n).view x = (⟨false, blank⟩, maps x) := by
  have key : ∀ n, (Eng.init grow blank maps n).len = n ∧
      (∀ x, (Eng.init grow blank maps n).busy x = none) ∧
      (∀ x, (Eng.init grow blank maps n).view x = (⟨false, blank⟩, maps x)) := by
    intro n
    induction n with
    | zero => exact ⟨rfl, fun _ => rfl, fun _ => rfl⟩
    | succ n ih =>
      obtain ⟨h1, h2, h3⟩ := ih
      refine ⟨by simp [Eng.init, append_len, h1], ?_, ?_⟩
      · intro x; simp [Eng.init, append_busy, h2]
      · intro x
        have := h3 x
        unfold Eng.view at this ⊢
        simp only [Eng.init, append_maps]
        simp only [Prod.mk.injEq] at this ⊢
        refine ⟨?_, this.2⟩
        unfold Eng.append
        split <;> simp only [true_and, if_true] <;> split <;> first | rfl | exact this.1
  obtain ⟨h1, h2, h3⟩ := key n
  refine ⟨⟨by omega, h2, ?_⟩, h1, h3⟩
  intro x _
  have := h3 x
  unfold Eng.view at this
  simp only [Prod.mk.injEq] at this
  rw [this.1]

/-- **C61 (partial)** As long as no HasDoc overlaps a worker call, any number of HasDoc calls, for
every growth strategy of `append`, changes nothing: every history runs, and every shard contains
what the worker calls alone put there. -/
theorem C61_quiet_hasDoc_reads_only_partial (cs : List (Call P M)) : ∀ (s : Eng P M),
    Quiet n s → (∀ sh f, Call.work sh f ∈ cs → sh < n) →
    ∃ s', s.run grow blank n (cs.flatMap Call.acts) = some s' ∧ Quiet n s' ∧
      ∀ x < n, ((s'.view x).1.priv, (s'.view x).2) =
        ideal (fun x => ((s.view x).1.priv, (s.view x).2)) cs x := by
  induction cs with
  | nil => intro s hq _; exact ⟨s, rfl, hq, fun _ _ => rfl⟩
  | cons c cs ih =>
    intro s hq hn
    cases c with
    | hasDoc p =>
      obtain ⟨a, b, c, d, e, f⟩ := hasDocLoop_frame (grow := grow) (blank := blank) p 0 n s
      have hv : ∀ x < n, ((s.hasDoc grow blank n p).1).view x = s.view x :=
        fun x hx => e x (lt_of_lt_of_le hx hq.len)
      have hq' : Quiet n (s.hasDoc grow blank n p).1 := by
        refine ⟨le_trans hq.len c, fun x => by unfold Eng.hasDoc; rw [b]; exact hq.busy x, ?_⟩
        intro x hx
        have h1 := congrArg (fun v => v.1.locked) (hv x hx)
        simpa [Eng.view, hq.unlocked x hx] using h1
      obtain ⟨s', h1, h2, h3⟩ := ih _ hq' (fun sh f h => hn sh f (by simp [h]))
      refine ⟨s', by simpa [Call.acts, Eng.run, Eng.step] using h1, h2, ?_⟩
      intro x hx
      rw [h3 x hx]
      have hid : ∀ (cs : List (Call P M)) (v w : Nat → P × M), (∀ sh f, Call.work sh f ∈ cs → sh < n) →
          (∀ x < n, v x = w x) → ∀ x < n, ideal v cs x = ideal w cs x := by
        intro cs
        induction cs with
        | nil => intro v w _ h x hx; exact h x hx
        | cons c cs ih =>
          intro v w hc h x hx
          cases c with
          | hasDoc _ => exact ih v w (fun sh f h => hc sh f (by simp [h])) h x hx
          | work sh f =>
            simp only [ideal]
            apply ih _ _ (fun sh f h => hc sh f (by simp [h]))
            · intro y hy
              rw [h sh (hc sh f (by simp)), h y hy]
            · exact hx
      exact hid cs _ _ (fun sh f h => hn sh f (by simp [h])) (fun y hy => by rw [hv y hy]) x hx
    | work sh f =>
      have hsh : sh < n := hn sh f (by simp)
      have hl := hq.unlocked sh hsh
      let s1 : Eng P M := { s with
        cells := fun g i => if g = s.gen ∧ i = sh then { s.cells g i with locked := true } else s.cells g i
        busy := fun x => if x = sh then some s.gen else s.busy x }
      let s2 : Eng P M := { s1 with
        cells := fun g i => if g = s.gen ∧ i = sh then
          ⟨false, (f (s1.cells s.gen sh).priv (s1.maps sh)).1⟩ else s1.cells g i
        maps := fun x => if x = sh then (f (s1.cells s.gen sh).priv (s1.maps sh)).2 else s1.maps x
        busy := fun x => if x = sh then none else s1.busy x }
      have e1 : s.step grow blank n (.enter sh) = some s1 := by
        simp [Eng.step, hsh, hq.busy sh, hl, s1]
      have e2 : s1.step grow blank n (.leave sh f) = some s2 := by
        simp [Eng.step, s1, s2]
      have hq2 : Quiet n s2 := by
        refine ⟨hq.len, ?_, ?_⟩
        · intro x
          by_cases hx : x = sh
          · simp [s2, hx]
          · simp [s2, s1, hx, hq.busy x]
        · intro x hx
          by_cases hxs : x = sh
          · simp [s2, s1, hxs]
          · simp [s2, s1, hxs, hq.unlocked x hx]
      obtain ⟨s', h1, h2, h3⟩ := ih s2 hq2 (fun sh f h => hn sh f (by simp [h]))
      refine ⟨s', ?_, h2, ?_⟩
      · simp only [List.flatMap_cons, Call.acts, List.cons_append, List.nil_append, Eng.run, e1,
          Option.bind_some, e2]
        exact h1
      · intro x hx
        rw [h3 x hx]
        simp only [ideal]
        have hv : (fun x => ((s2.view x).1.priv, (s2.view x).2)) =
            fun x => if x = sh then f (s.view sh).1.priv (s.view sh).2
              else ((s.view x).1.priv, (s.view x).2) := by
          funext y
          by_cases hy : y = sh
          · simp [Eng.view, s2, s1, hy]
          · simp [Eng.view, s2, s1, hy]
        rw [hv]

/-- **C61 (partial)** For an engine as `Init` leaves it. -/
theorem C61_fresh_engine_partial (maps : Nat → M) (cs : List (Call P M))
    (hn : ∀ sh f, Call.work sh f ∈ cs → sh < n) :
    ∃ s', (Eng.init grow blank maps n).run grow blank n (cs.flatMap Call.acts) = some s' ∧ Quiet n s' ∧
      ∀ x < n, ((s'.view x).1.priv, (s'.view x).2) = ideal (fun x => (blank, maps x)) cs x := by
  obtain ⟨h1, -, h3⟩ := init_quiet (grow := grow) (blank := blank) (n := n) maps
  obtain ⟨s', a, b, c⟩ := C61_quiet_hasDoc_reads_only_partial (grow := grow) (blank := blank) cs _ h1 hn
  refine ⟨s', a, b, fun x hx => ?_⟩
  rw [c x hx]
  congr 1
  funext y
  rw [h3 y]

/-- Non-vacuity: a fresh engine is quiet; a history with two HasDoc calls. -/
example : ((Eng.init (fun c => 2 * c + 1) (0 : Nat) (fun _ => (0 : Nat)) 2).run (fun c => 2 * c + 1) 0 2
    ([Call.work 0 (fun p m => (p + 1, m + 5)), .hasDoc (· == 5), .work 1 (fun p m => (p + 1, m + 7)),
      .hasDoc (· == 9), .work 0 (fun p m => (p + 1, m + 1))].flatMap Call.acts)).map
    (fun s => (s.view 0, s.view 1, s.len, s.gen)) =
    some ((⟨false, 2⟩, 6), (⟨false, 1⟩, 7), 5, 3) := by decide +kernel

/-! ## The refutation -/

/-- `k` HasDoc calls for a document that no shard has. -/
def queries (k : Nat) : List (Act P M) := List.replicate k (.hasDoc (fun _ => false))

theorem hasDoc_absent_len (sh todo : Nat) (s : Eng P M) :
    ((s.hasDocLoop grow blank (fun _ => false) sh todo).1).len = s.len + todo := by
  induction todo generalizing sh s with
  | zero => rfl
  | succ t ih =>
    simp only [Eng.hasDocLoop, Bool.false_eq_true, if_false]
    rw [ih, append_len]; omega

theorem append_cap_gen (s : Eng P M) :
    (s.len < s.cap ∧ (s.append grow blank).gen = s.gen ∧ (s.append grow blank).cap = s.cap) ∨
    (s.append grow blank).gen = s.gen + 1 := by
  unfold Eng.append
  split
  · rename_i h; exact Or.inl ⟨h, rfl, rfl⟩
  · exact Or.inr rfl

theorem hasDoc_gen_or_cap (p : M → Bool) (sh todo : Nat) (s : Eng P M) :
    (((s.hasDocLoop grow blank p sh todo).1).gen = s.gen ∧
      ((s.hasDocLoop grow blank p sh todo).1).cap = s.cap ∧
      (todo = 0 ∨ ((s.hasDocLoop grow blank p sh todo).1).len ≤ s.cap)) ∨
    s.gen < ((s.hasDocLoop grow blank p sh todo).1).gen := by
  induction todo generalizing sh s with
  | zero => exact Or.inl ⟨rfl, rfl, Or.inl rfl⟩
  | succ t ih =>
    simp only [Eng.hasDocLoop]
    rcases append_cap_gen (grow := grow) (blank := blank) s with ⟨h1, h2, h3⟩ | h1
    · split
      · left; refine ⟨h2, h3, Or.inr ?_⟩; rw [append_len]; omega
      · rcases ih (sh + 1) (s.append grow blank) with ⟨a, b, c⟩ | c
        · left
          refine ⟨a.trans h2, b.trans h3, Or.inr ?_⟩
          rcases c with rfl | c
          · simp only [Eng.hasDocLoop, append_len]; omega
          · omega
        · right; omega
    · split
      · right; simp only; omega
      · right
        have := (hasDocLoop_frame (grow := grow) (blank := blank) p (sh + 1) t (s.append grow blank)).2.2.2.1
        omega

/-- Enough HasDoc calls move the slice to a new array, whatever the growth strategy. -/
theorem queries_move (hn : 1 ≤ n) : ∀ (m : Nat) (s : Eng P M), s.cap - s.len < m →
    ∃ k s', s.run grow blank n (queries k) = some s' ∧ s.gen < s'.gen ∧
      s'.busy = s.busy ∧ s'.maps = s.maps ∧ (∀ x < s.len, s'.view x = s.view x) ∧
      s.len ≤ s'.len := by
  intro m
  induction m with
  | zero => intro s h; omega
  | succ m ih =>
    intro s hm
    let s1 := (s.hasDoc grow blank n (fun _ => false)).1
    obtain ⟨a, b, c, d, e, _⟩ := hasDocLoop_frame (grow := grow) (blank := blank) (fun _ => false) 0 n s
    have hlen : s1.len = s.len + n := hasDoc_absent_len 0 n s
    rcases hasDoc_gen_or_cap (grow := grow) (blank := blank) (fun _ => false) 0 n s with ⟨h1, h2, h3⟩ | h1
    · have h3' : s1.len ≤ s.cap := by
        rcases h3 with h3 | h3
        · omega
        · exact h3
      have h2' : s1.cap = s.cap := h2
      obtain ⟨k, s', r1, r2, r3, r4, r5, r6⟩ := ih s1 (by omega)
      have h1' : s1.gen = s.gen := h1
      refine ⟨k + 1, s', ?_, by omega, r3.trans b, r4.trans a, ?_, by omega⟩
      · simpa [queries, List.replicate_succ, Eng.run, Eng.step] using r1
      · intro x hx
        rw [r5 x (by omega)]
        exact e x hx
    · exact ⟨1, s1, rfl, h1, b, a, fun x hx => e x hx, c⟩

/-- A shard is stuck: the element the engine uses is locked, and no call in progress will unlock
it (calls in progress point into older arrays). -/
def Stuck (sh : Nat) (s : Eng P M) : Prop :=
  sh < s.len ∧ (s.cells s.gen sh).locked = true ∧ s.busy sh = none

theorem stuck_step {sh : Nat} {s s' : Eng P M} {a : Act P M} (h : Stuck sh s)
    (hs : s.step grow blank n a = some s') : Stuck sh s' ∧ a ≠ .enter sh := by
  obtain ⟨h1, h2, h3⟩ := h
  cases a with
  | enter x =>
    simp only [Eng.step] at hs
    split at hs
    · rename_i hg
      cases hs
      have hx : x ≠ sh := by
        rintro rfl
        rw [h2] at hg; simp at hg
      refine ⟨⟨h1, ?_, ?_⟩, by simp [hx]⟩
      · have : sh ≠ x := fun h => hx h.symm
        simp [this, h2]
      · have : sh ≠ x := fun h => hx h.symm
        simp [this, h3]
    · cases hs
  | leave x f =>
    simp only [Eng.step] at hs
    split at hs
    · cases hs
    · rename_i g0 hb
      cases hs
      have hx : sh ≠ x := by
        rintro rfl
        rw [h3] at hb; cases hb
      exact ⟨⟨h1, by simp [hx, h2], by simp [hx, h3]⟩, by simp⟩
  | hasDoc p =>
    simp only [Eng.step] at hs
    cases hs
    obtain ⟨a, b, c, d, e, f⟩ := hasDocLoop_frame (grow := grow) (blank := blank) p 0 n s
    refine ⟨⟨lt_of_lt_of_le h1 c, ?_, by unfold Eng.hasDoc; rw [b]; exact h3⟩, by simp⟩
    have := congrArg (fun v => v.1.locked) (e sh h1)
    simp only [Eng.view] at this
    unfold Eng.hasDoc
    rw [this, h2]

theorem stuck_run {sh : Nat} (as : List (Act P M)) : ∀ {s s' : Eng P M}, Stuck sh s →
    s.run grow blank n as = some s' → Act.enter sh ∉ as := by
  induction as with
  | nil => intro s s' _ _; simp
  | cons a as ih =>
    intro s s' h hr
    simp only [Eng.run, Option.bind_eq_some_iff] at hr
    obtain ⟨t, h1, h2⟩ := hr
    obtain ⟨hs, ha⟩ := stuck_step h h1
    simp only [List.mem_cons, not_or]
    exact ⟨fun h => ha h.symm, ih hs h2⟩

/-- **C61 is refuted** For every growth strategy of `append`, every engine with at least one shard
and every moment at which a worker is inside a call on a shard: some number of HasDoc calls (for
any absent document) followed by the end of that call loses the counters the call updated, and
blocks the shard for ever: no schedule whatsoever contains another call on it. -/
theorem C61_refuted_hasDoc_blocks_shard (hn : 1 ≤ n) (s : Eng P M) (sh : Nat) (f : P → M → P × M)
    (hsh : sh < s.len) (hbusy : s.busy sh = some s.gen) (hlock : (s.cells s.gen sh).locked = true) :
    ∃ (k : Nat) (s' : Eng P M), s.run grow blank n (queries k ++ [.leave sh f]) = some s' ∧
      (s'.view sh).1.priv = (s.view sh).1.priv ∧
      ∀ as s'', s'.run grow blank n as = some s'' → Act.enter sh ∉ as := by
  obtain ⟨k, s1, r1, r2, r3, r4, r5, r6⟩ := queries_move (grow := grow) (blank := blank) (n := n) hn
    (s.cap - s.len + 1) s (by omega)
  have hrun : ∀ (as bs : List (Act P M)) (s : Eng P M), s.run grow blank n (as ++ bs) =
      (s.run grow blank n as).bind (fun s' => s'.run grow blank n bs) := by
    intro as
    induction as with
    | nil => intro bs s; rfl
    | cons a as ih =>
      intro bs s
      simp only [List.cons_append, Eng.run]
      cases s.step grow blank n a with
      | none => rfl
      | some t => simp [ih]
  have hb1 : s1.busy sh = some s.gen := by rw [r3, hbusy]
  have hne : s1.gen ≠ s.gen := by omega
  have hv := r5 sh hsh
  simp only [Eng.view, Prod.mk.injEq] at hv
  let s2 : Eng P M := { s1 with
    cells := fun g i =>
      if g = s.gen ∧ i = sh then ⟨false, (f (s1.cells s.gen sh).priv (s1.maps sh)).1⟩ else s1.cells g i
    maps := fun x => if x = sh then (f (s1.cells s.gen sh).priv (s1.maps sh)).2 else s1.maps x
    busy := fun x => if x = sh then none else s1.busy x }
  have e2 : s1.step grow blank n (.leave sh f) = some s2 := by
    simp only [Eng.step, hb1]; rfl
  refine ⟨k, s2, by rw [hrun, r1, Option.bind_some]; simp only [Eng.run, e2, Option.bind_some], ?_, ?_⟩
  · simp [Eng.view, s2, hne, hv.1]
  · intro as s'' hr
    refine stuck_run as ?_ hr
    refine ⟨lt_of_lt_of_le hsh r6, ?_, by simp [s2]⟩
    simp [s2, hne, hv.1, hlock]

/-- The hypotheses are met: a fresh engine with one shard, a worker enters; Go doubles the
capacity. -/
example : ((Eng.init (fun c => 2 * c + 1) (0 : Nat) (fun _ => (0 : Nat)) 1).step (fun c => 2 * c + 1) 0 1
    (.enter 0)).map (fun s => (s.busy 0, s.gen, (s.cells s.gen 0).locked, s.len)) =
    some (some 1, 1, true, 1) := by decide +kernel

end Riot.HasDoc
