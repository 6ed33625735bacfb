import Verif.Model.ThreadPool
/-!
# Thread pool (C38)
-/
namespace Nisaba.Props
open Nisaba.ThreadPool

/-- Tasks scheduled by the owner. -/
def ownerTasks (ops : List Op) : List Task :=
  ops.filterMap (fun o => match o with | .schedule t => some t | .spawn => none)

/-- Tasks scheduled in an execution, in order. -/
def scheduledIn (tr : List Event) : List Task :=
  tr.filterMap (fun e => match e with | .scheduled t => some t | _ => none)

/-- Tasks begun in an execution, in order. -/
def begunIn (tr : List Event) : List Task :=
  tr.filterMap (fun e => match e with | .begins t => some t | _ => none)

/-- Tasks that returned in an execution, in order. -/
def finishedIn (tr : List Event) : List Task :=
  tr.filterMap (fun e => match e with | .finishes t => some t | _ => none)

/-- No shutdown signal was sent. -/
def NoShutdown (tr : List Event) : Prop := ∀ e ∈ tr, ∀ n, e ≠ .shutdown n

/-- Everything put into the queue. -/
def pushed (tr : List Event) : List (Option Task) :=
  tr.flatMap (fun e => match e with
    | .scheduled t => [some t] | .shutdown n => List.replicate n none | _ => [])

/-- Everything taken from the queue. -/
def popped (tr : List Event) : List (Option Task) :=
  tr.flatMap (fun e => match e with | .begins t => [some t] | .stops => [none] | _ => [])

/-- Tasks being run. -/
def runningIn (ws : List Worker) : List Task :=
  ws.filterMap (fun w => match w with | .running t _ => some t | _ => none)

/-- Number of workers that returned. -/
def stoppedIn (ws : List Worker) : Nat := ws.countP (fun w => match w with | .stopped => true | _ => false)

/-- Number of shutdown signals. -/
def nulls (q : List (Option Task)) : Nat := q.countP (fun o => o.isNone)

/-- Invariant of executions. -/
structure PoolInv (ops : List Op) (tr : List Event) (s : State) : Prop where
  fifo : pushed tr = popped tr ++ s.queue
  live : (begunIn tr).Perm (finishedIn tr ++ runningIn s.workers)
  spawns : .spawn ∈ ops → .spawn ∈ s.ops ∨ s.workers ≠ []
  phase : match s.phase with
    | .open_ => NoShutdown tr ∧ stoppedIn s.workers = 0 ∧
        (ownerTasks ops).Sublist (scheduledIn tr ++ ownerTasks s.ops)
    | .joining k => s.ops = [] ∧ nulls s.queue + stoppedIn s.workers = s.workers.length ∧
        (∀ i < k, s.workers[i]? = some .stopped) ∧
        ∃ tr1 tr2, tr = tr1 ++ .shutdown s.workers.length :: tr2 ∧ NoShutdown tr1 ∧ NoShutdown tr2 ∧
          (ownerTasks ops).Sublist (scheduledIn tr1)
    | .returned => s.ops = [] ∧ nulls s.queue + stoppedIn s.workers = s.workers.length ∧
        (∀ i < s.workers.length, s.workers[i]? = some .stopped) ∧
        ∃ tr1 tr2, tr = tr1 ++ .shutdown s.workers.length :: tr2 ∧ NoShutdown tr1 ∧ NoShutdown tr2 ∧
          (ownerTasks ops).Sublist (scheduledIn tr1)

theorem pushed_noShutdown {tr : List Event} (h : NoShutdown tr) :
    pushed tr = (scheduledIn tr).map some := by
  induction tr with
  | nil => rfl
  | cons e tr ih =>
    have ih := ih (fun x hx => h x (by simp [hx]))
    cases e with
    | shutdown n => exact absurd rfl (h _ (by simp) n)
    | scheduled t => simpa [pushed, scheduledIn] using ih
    | _ => simpa [pushed, scheduledIn] using ih

theorem popped_begun (tr : List Event) :
    (popped tr).filterMap id = begunIn tr := by
  induction tr with
  | nil => rfl
  | cons e tr ih => cases e <;> simpa [popped, begunIn] using ih

theorem noShutdown_snoc {tr : List Event} {e : Event} (h : NoShutdown tr) (he : ∀ n, e ≠ .shutdown n) :
    NoShutdown (tr ++ [e]) := by
  intro x hx
  rcases List.mem_append.1 hx with hx | hx
  · exact h x hx
  · simp at hx; subst hx; exact he

theorem inv_initial (ops : List Op) : PoolInv ops [] (initial ops) where
  fifo := rfl
  live := List.Perm.refl _
  spawns h := .inl h
  phase := ⟨by simp [NoShutdown], rfl, by simp [initial, scheduledIn]⟩

/-- Trace part of the invariant after the shutdown. -/
def After (ops : List Op) (n : Nat) (tr : List Event) : Prop :=
  ∃ tr1 tr2, tr = tr1 ++ .shutdown n :: tr2 ∧ NoShutdown tr1 ∧ NoShutdown tr2 ∧
    (ownerTasks ops).Sublist (scheduledIn tr1)

theorem after_snoc {ops : List Op} {n : Nat} {tr : List Event} {e : Event} (h : After ops n tr)
    (he : ∀ n, e ≠ .shutdown n) : After ops n (tr ++ [e]) := by
  obtain ⟨tr1, tr2, rfl, h1, h2, h3⟩ := h
  exact ⟨tr1, tr2 ++ [e], by simp, h1, noShutdown_snoc h2 he, h3⟩

theorem get_replace {α : Type} {a b : List α} {x y : α} {i : Nat} {z : α}
    (h : (a ++ x :: b)[i]? = some z) : (a ++ y :: b)[i]? = some z ∨ (i = a.length ∧ z = x) := by
  by_cases hi : i < a.length
  · rw [List.getElem?_append_left hi] at h ⊢; exact .inl h
  · rw [List.getElem?_append_right (by omega)] at h ⊢
    cases hk : i - a.length with
    | zero => rw [hk] at h; simp at h; exact .inr ⟨by omega, h.symm⟩
    | succ k => rw [hk] at h; left; simpa using h

theorem stopped_replace {a b : List Worker} {x y : Worker} {k : Nat} (hx : x ≠ .stopped)
    (h : ∀ i < k, (a ++ x :: b)[i]? = some .stopped) : ∀ i < k, (a ++ y :: b)[i]? = some .stopped := by
  intro i hi
  rcases get_replace (h i hi) with h | ⟨_, h⟩
  · exact h
  · exact absurd h.symm hx

theorem inv_step {ops : List Op} {tr : List Event} {s s' : State} {e : Event}
    (h : PoolInv ops tr s) (hs : Step s e s') : PoolInv ops (tr ++ [e]) s' := by
  obtain ⟨hf, hl, hsp, hp⟩ := h
  cases hs with
  | @schedule t o q ws =>
    simp only at hf hl hsp hp
    obtain ⟨p1, p2, p3⟩ := hp
    refine ⟨?_, ?_, ?_, noShutdown_snoc p1 (by simp), p2, ?_⟩
    · simp only [pushed, popped] at hf ⊢
      simp [List.flatMap_append, hf]
    · simpa [begunIn, finishedIn] using hl
    · intro h; rcases hsp h with h | h
      · simp at h; exact .inl h
      · exact .inr h
    · simpa [scheduledIn, ownerTasks] using p3
  | @spawn o q ws =>
    simp only at hf hl hsp hp
    obtain ⟨p1, p2, p3⟩ := hp
    refine ⟨?_, ?_, ?_, noShutdown_snoc p1 (by simp), ?_, ?_⟩
    · simpa [pushed, popped] using hf
    · simpa [begunIn, finishedIn, runningIn] using hl
    · intro _; right; simp
    · simpa [stoppedIn] using p2
    · simpa [scheduledIn, ownerTasks] using p3
  | @shutdown q ws =>
    simp only at hf hl hsp hp
    obtain ⟨p1, p2, p3⟩ := hp
    have hn : nulls q = 0 := by
      rw [nulls, List.countP_eq_zero]
      intro o ho
      have : o ∈ pushed tr := by rw [hf]; exact List.mem_append_right _ ho
      rw [pushed_noShutdown p1] at this
      obtain ⟨t, _, rfl⟩ := List.mem_map.1 this
      simp
    refine ⟨?_, ?_, hsp, rfl, ?_, by simp, tr, [], by simp, p1, by simp [NoShutdown], ?_⟩
    · simp only [pushed, popped] at hf ⊢
      simp [List.flatMap_append, hf]
    · simpa [begunIn, finishedIn] using hl
    · simp only [nulls] at hn ⊢
      rw [List.countP_append, hn, p2]; simp [List.countP_replicate]
    · simpa [ownerTasks] using p3
  | @join o k q ws hk =>
    simp only at hf hl hsp hp
    obtain ⟨p0, p1, p2, p3⟩ := hp
    refine ⟨?_, ?_, hsp, p0, p1, ?_, after_snoc p3 (by simp)⟩
    · simpa [pushed, popped] using hf
    · simpa [begunIn, finishedIn] using hl
    · intro i hi
      by_cases h : i < k
      · exact p2 i h
      · have : i = k := by omega
        subst this; exact hk
  | @return_ o q ws =>
    simp only at hf hl hsp hp
    obtain ⟨p0, p1, p2, p3⟩ := hp
    refine ⟨?_, ?_, hsp, p0, p1, p2, after_snoc p3 (by simp)⟩
    · simpa [pushed, popped] using hf
    · simpa [begunIn, finishedIn] using hl
  | @begin o ph t q a b =>
    simp only at hf hl hsp hp
    refine ⟨?_, ?_, by intro h; rcases hsp h with h | h; exact .inl h; right; simp, ?_⟩
    · simp only [pushed, popped] at hf ⊢
      simp [List.flatMap_append, hf]
    · simp only [begunIn, finishedIn, runningIn, List.filterMap_append, List.filterMap_cons,
        List.filterMap_nil, List.append_nil] at hl ⊢
      have := hl.append_right [t]
      refine this.trans ?_
      simp only [List.append_assoc]
      refine List.Perm.append_left _ (List.Perm.append_left _ ?_)
      exact List.perm_append_comm
    · cases ph with
      | open_ =>
        obtain ⟨p1, p2, p3⟩ := hp
        exact ⟨noShutdown_snoc p1 (by simp), by simpa [stoppedIn] using p2, by simpa [scheduledIn] using p3⟩
      | joining k =>
        obtain ⟨p0, p1, p2, p3⟩ := hp
        refine ⟨p0, by simpa [nulls, stoppedIn] using p1, stopped_replace (by simp) p2, ?_⟩
        simpa [After] using after_snoc p3 (e := .begins t) (by simp)
      | returned =>
        obtain ⟨p0, p1, p2, p3⟩ := hp
        have := p2 a.length (by simp)
        simp at this
  | @stop o ph q a b =>
    simp only at hf hl hsp hp
    refine ⟨?_, ?_, by intro h; rcases hsp h with h | h; exact .inl h; right; simp, ?_⟩
    · simp only [pushed, popped] at hf ⊢
      simp [List.flatMap_append, hf]
    · simpa [begunIn, finishedIn, runningIn] using hl
    · cases ph with
      | open_ =>
        obtain ⟨p1, p2, p3⟩ := hp
        have : none ∈ pushed tr := by rw [hf]; simp
        rw [pushed_noShutdown p1] at this
        simp at this
      | joining k =>
        obtain ⟨p0, p1, p2, p3⟩ := hp
        refine ⟨p0, ?_, stopped_replace (by simp) p2, ?_⟩
        · simp only [nulls, stoppedIn, List.countP_cons, List.countP_append, List.length_append,
            List.length_cons, Option.isNone_none, if_true] at p1 ⊢
          simp at p1 ⊢
          omega
        · simpa [After] using after_snoc p3 (e := .stops) (by simp)
      | returned =>
        obtain ⟨p0, p1, p2, p3⟩ := hp
        have := p2 a.length (by simp)
        simp at this
  | @work o ph t x rest q a b =>
    simp only at hf hl hsp hp
    refine ⟨?_, ?_, by intro h; rcases hsp h with h | h; exact .inl h; right; simp, ?_⟩
    · simp only [pushed, popped] at hf ⊢
      simp [List.flatMap_append, hf]
    · simpa [begunIn, finishedIn, runningIn] using hl
    · cases ph with
      | open_ =>
        obtain ⟨p1, p2, p3⟩ := hp
        refine ⟨noShutdown_snoc p1 (by simp), by simpa [stoppedIn] using p2, ?_⟩
        refine p3.trans ?_
        simp only [scheduledIn, List.filterMap_append, List.filterMap_cons, List.filterMap_nil,
          List.append_assoc]
        exact List.Sublist.append_left (by simp) _
      | joining k =>
        obtain ⟨p0, p1, p2, p3⟩ := hp
        refine ⟨p0, by simpa [nulls, stoppedIn] using p1, stopped_replace (by simp) p2, ?_⟩
        simpa [After] using after_snoc p3 (e := .scheduled x) (by simp)
      | returned =>
        obtain ⟨p0, p1, p2, p3⟩ := hp
        have := p2 a.length (by simp)
        simp at this
  | @finish o ph t q a b =>
    simp only at hf hl hsp hp
    refine ⟨?_, ?_, by intro h; rcases hsp h with h | h; exact .inl h; right; simp, ?_⟩
    · simpa [pushed, popped] using hf
    · simp only [begunIn, finishedIn, runningIn, List.filterMap_append, List.filterMap_cons,
        List.filterMap_nil, List.append_nil] at hl ⊢
      refine hl.trans ?_
      simp only [List.append_assoc]
      refine List.Perm.append_left _ ?_
      exact (List.perm_middle)
    · cases ph with
      | open_ =>
        obtain ⟨p1, p2, p3⟩ := hp
        exact ⟨noShutdown_snoc p1 (by simp), by simpa [stoppedIn] using p2, by simpa [scheduledIn] using p3⟩
      | joining k =>
        obtain ⟨p0, p1, p2, p3⟩ := hp
        refine ⟨p0, by simpa [nulls, stoppedIn] using p1, stopped_replace (by simp) p2, ?_⟩
        simpa [After] using after_snoc p3 (e := .finishes t) (by simp)
      | returned =>
        obtain ⟨p0, p1, p2, p3⟩ := hp
        have := p2 a.length (by simp)
        simp at this

theorem pool_inv {ops : List Op} {tr : List Event} {s : State} (h : Exec (initial ops) tr s) :
    PoolInv ops tr s := by
  generalize hi : initial ops = s0 at h
  induction h with
  | nil => subst hi; exact inv_initial ops
  | snoc _ hs ih => exact inv_step ih hs

theorem scheduled_pushed (tr : List Event) : (pushed tr).filterMap id = scheduledIn tr := by
  induction tr with
  | nil => rfl
  | cons e tr ih =>
    have hr : ∀ n, (List.replicate n (none : Option Task)).filterMap id = [] := by
      intro n; induction n with
      | zero => rfl
      | succ n ih => simp
    cases e <;> simp [pushed, scheduledIn, List.filterMap_append, hr] at ih ⊢ <;> exact ih

/-- C38: at every moment of every execution, the tasks begun are the first ones scheduled, in the
order in which they were scheduled; hence no task is begun twice for one call of `Schedule`. -/
theorem C38_fifo (ops : List Op) (tr : List Event) (s : State) (h : Exec (initial ops) tr s) :
    begunIn tr <+: scheduledIn tr := by
  have := (pool_inv h).fifo
  refine ⟨s.queue.filterMap id, ?_⟩
  rw [← popped_begun, ← List.filterMap_append, ← this, scheduled_pushed]

theorem prefix_null {A B P Q : List (Option Task)} {n : Nat}
    (hn : 0 < n) (h : A ++ List.replicate n none ++ B = P ++ Q) (hQ : ∀ o ∈ Q, o ≠ none) :
    ∃ C, P = A ++ List.replicate n none ++ C ∧ C ++ Q = B := by
  rcases List.append_eq_append_iff.1 h with ⟨C, h1, h2⟩ | ⟨C, h1, h2⟩
  · exact ⟨C, h1, h2.symm⟩
  · cases C with
    | nil => exact ⟨[], by simpa using h1.symm, by simpa using h2⟩
    | cons c C =>
      exfalso
      have hmem : (none : Option Task) ∈ c :: C := by
        have hlast := congrArg List.getLast? h1
        rw [List.getLast?_append, List.getLast?_append, List.getLast?_replicate,
          if_neg (by omega), List.getLast?_eq_some_getLast (by simp : c :: C ≠ [])] at hlast
        simp only [Option.some_or, Option.some.injEq] at hlast
        rw [hlast]
        exact List.getLast_mem _
      exact hQ none (by rw [h2]; exact List.mem_append_left _ hmem) rfl

/-- C38: when the destructor of a pool with workers has returned, every task scheduled before the
destructor locked the queue, in particular every task scheduled by the owner, has been run to its end
exactly once.  Of the tasks scheduled later, by running tasks, some first ones may have been run. -/
theorem C38_all_executed (ops : List Op) (hw : .spawn ∈ ops) (tr : List Event) (s : State)
    (h : Exec (initial ops) tr s) (hr : s.phase = .returned) :
    ∃ tr1 n tr2 late, tr = tr1 ++ .shutdown n :: tr2 ∧ NoShutdown tr1 ∧ NoShutdown tr2 ∧
      (ownerTasks ops).Sublist (scheduledIn tr1) ∧
      late <+: scheduledIn tr2 ∧ begunIn tr = scheduledIn tr1 ++ late ∧
      (finishedIn tr).Perm (scheduledIn tr1 ++ late) := by
  obtain ⟨hf, hl, hsp, hp⟩ := pool_inv h
  rw [hr] at hp
  obtain ⟨p0, p1, p2, tr1, tr2, rfl, q1, q2, q3⟩ := hp
  have hpos : 0 < s.workers.length := by
    rcases hsp hw with h | h
    · rw [p0] at h; simp at h
    · exact List.length_pos_iff.2 h
  have hall : ∀ w ∈ s.workers, w = .stopped := by
    intro w hw
    obtain ⟨i, hi⟩ := List.mem_iff_getElem?.1 hw
    have := p2 i (List.getElem?_eq_some_iff.1 hi).1
    rw [hi] at this; simpa using this
  have hst : stoppedIn s.workers = s.workers.length := by
    rw [stoppedIn, List.countP_eq_length]
    intro w hw; rw [hall w hw]
  have hnull : ∀ o ∈ s.queue, o ≠ none := by
    have : nulls s.queue = 0 := by omega
    rw [nulls, List.countP_eq_zero] at this
    intro o ho e
    exact this o ho (by rw [e]; rfl)
  have hrun : runningIn s.workers = [] := by
    rw [runningIn, List.filterMap_eq_nil_iff]
    intro w hw; rw [hall w hw]
  have hpush : pushed (tr1 ++ .shutdown s.workers.length :: tr2) =
      (scheduledIn tr1).map some ++ List.replicate s.workers.length none ++ (scheduledIn tr2).map some := by
    rw [← pushed_noShutdown q1, ← pushed_noShutdown q2]
    simp [pushed]
  rw [hpush] at hf
  obtain ⟨C, hC1, hC2⟩ := prefix_null hpos hf hnull
  have hb : begunIn (tr1 ++ .shutdown s.workers.length :: tr2) = scheduledIn tr1 ++ C.filterMap id := by
    rw [← popped_begun, hC1, List.filterMap_append, List.filterMap_append]
    have hr : ∀ n, (List.replicate n (none : Option Task)).filterMap id = [] := by
      intro n; induction n with
      | zero => rfl
      | succ n ih => simp
    have hm : ∀ l : List Task, (l.map some).filterMap id = l := by
      intro l; induction l with
      | nil => rfl
      | cons a l ih => simp
    rw [hr, hm, List.append_nil]
  refine ⟨tr1, _, tr2, C.filterMap id, rfl, q1, q2, q3, ?_, hb, ?_⟩
  · refine ⟨s.queue.filterMap id, ?_⟩
    rw [← List.filterMap_append, hC2]
    generalize scheduledIn tr2 = l
    induction l with
    | nil => rfl
    | cons a l ih => simp
  · rw [← hb]
    rw [hrun, List.append_nil] at hl
    exact hl.symm

/-- C38: no execution gets stuck before the destructor has returned. -/
theorem C38_no_deadlock (ops : List Op) (tr : List Event) (s : State) (h : Exec (initial ops) tr s)
    (hr : s.phase ≠ .returned) : ∃ e s', Step s e s' := by
  obtain ⟨hf, hl, hsp, hp⟩ := pool_inv h
  obtain ⟨o, ph, q, ws⟩ := s
  simp only at hr hp hf hl
  cases ph with
  | returned => exact absurd rfl hr
  | open_ =>
    cases o with
    | nil => exact ⟨_, _, .shutdown⟩
    | cons x o => cases x with
      | schedule t => exact ⟨_, _, .schedule⟩
      | spawn => exact ⟨_, _, .spawn⟩
  | joining k =>
    obtain ⟨p0, p1, p2, p3⟩ := hp
    by_cases hall : ∀ w ∈ ws, w = .stopped
    · by_cases hk : k < ws.length
      · refine ⟨_, _, .join (k := k) ?_⟩
        rw [List.getElem?_eq_getElem hk, hall _ (List.getElem_mem hk)]
      · have hk' : k = ws.length := by
          rcases Nat.lt_or_ge ws.length k with h | h
          · have := p2 ws.length h
            rw [List.getElem?_eq_none (Nat.le_refl _)] at this
            cases this
          · omega
        subst hk'
        exact ⟨_, _, .return_⟩
    · simp only [Classical.not_forall] at hall
      obtain ⟨w, hw, hne⟩ := hall
      obtain ⟨a, b, rfl⟩ := List.append_of_mem hw
      cases w with
      | stopped => exact absurd rfl hne
      | running t rest =>
        cases rest with
        | nil => exact ⟨_, _, .finish⟩
        | cons x rest => exact ⟨_, _, .work⟩
      | idle =>
        cases q with
        | cons x q => cases x with
          | none => exact ⟨_, _, .stop⟩
          | some t => exact ⟨_, _, .begin⟩
        | nil =>
          exfalso
          have h1 : stoppedIn a ≤ a.length := List.countP_le_length
          have h2 : stoppedIn b ≤ b.length := List.countP_le_length
          simp only [nulls, stoppedIn, List.countP_nil, List.countP_append, List.countP_cons,
            List.length_append, List.length_cons, Bool.false_eq_true, if_false] at p1 h1 h2
          omega

mutual
/-- Number of steps caused by a task that is in the queue. -/
def taskCost : Task → Nat
  | .mk _ l => 2 + tasksCost l
/-- Number of steps caused by tasks still to be scheduled. -/
def tasksCost : List Task → Nat
  | [] => 0
  | t :: l => 1 + taskCost t + tasksCost l
end

/-- Steps caused by the owner's calls. -/
def opsCost : List Op → Nat
  | [] => 0
  | .schedule t :: o => 1 + taskCost t + opsCost o
  | .spawn :: o => 4 + opsCost o

/-- Steps caused by the queue. -/
def queueCost : List (Option Task) → Nat
  | [] => 0
  | some t :: q => taskCost t + queueCost q
  | none :: q => 1 + queueCost q

/-- Steps caused by the workers. -/
def workersCost : List Worker → Nat
  | [] => 0
  | .idle :: w => 1 + workersCost w
  | .running _ rest :: w => 2 + tasksCost rest + workersCost w
  | .stopped :: w => workersCost w

theorem queueCost_append (a b : List (Option Task)) : queueCost (a ++ b) = queueCost a + queueCost b := by
  induction a with
  | nil => simp [queueCost]
  | cons x a ih => cases x <;> simp [queueCost, ih] <;> omega

theorem workersCost_append (a b : List Worker) : workersCost (a ++ b) = workersCost a + workersCost b := by
  induction a with
  | nil => simp [workersCost]
  | cons x a ih => cases x <;> simp [workersCost, ih] <;> omega

theorem queueCost_nulls (n : Nat) : queueCost (List.replicate n none) = n := by
  induction n with
  | zero => rfl
  | succ n ih => rw [List.replicate_succ, queueCost, ih]; omega

/-- Bound on the number of steps left. -/
def stateCost (s : State) : Nat :=
  opsCost s.ops + queueCost s.queue + workersCost s.workers +
  match s.phase with
  | .open_ => 2 * s.workers.length + 2
  | .joining k => s.workers.length - k + 1
  | .returned => 0

theorem cost_step {s s' : State} {e : Event} (hs : Step s e s') : stateCost s' + 1 ≤ stateCost s := by
  cases hs with
  | schedule => simp only [stateCost, opsCost, queueCost_append, queueCost]; omega
  | spawn =>
    simp only [stateCost, opsCost, workersCost_append, workersCost, List.length_append, List.length_cons,
      List.length_nil]
    omega
  | shutdown => simp only [stateCost, opsCost, queueCost_append, queueCost_nulls]; omega
  | @join o k q ws hk =>
    have := (List.getElem?_eq_some_iff.1 hk).1
    simp only [stateCost]; omega
  | return_ => simp only [stateCost]; omega
  | @begin o ph t q a b =>
    obtain ⟨name, l⟩ := t
    have : ∀ x y : Worker, (a ++ x :: b).length = (a ++ y :: b).length := by simp
    cases ph <;> simp only [stateCost, queueCost, workersCost_append, workersCost, taskCost, Task.spawns,
      List.length_append, List.length_cons] <;> omega
  | @stop o ph q a b =>
    cases ph <;> simp only [stateCost, queueCost, workersCost_append, workersCost, List.length_append,
      List.length_cons] <;> omega
  | @work o ph t x rest q a b =>
    cases ph <;> simp only [stateCost, queueCost, queueCost_append, workersCost_append, workersCost,
      tasksCost, List.length_append, List.length_cons] <;> omega
  | @finish o ph t q a b =>
    cases ph <;> simp only [stateCost, workersCost_append, workersCost, tasksCost,
      List.length_append, List.length_cons] <;> omega

/-- C38: every execution is finite, with a bound that depends on the owner's calls only.  Together
with `C38_no_deadlock` the destructor always returns. -/
theorem C38_terminates (ops : List Op) (tr : List Event) (s : State) (h : Exec (initial ops) tr s) :
    tr.length ≤ opsCost ops + 2 := by
  have : ∀ {s0 tr s}, Exec s0 tr s → stateCost s + tr.length ≤ stateCost s0 := by
    intro s0 tr s h
    induction h with
    | nil => simp
    | snoc _ hs ih => have := cost_step hs; simp only [List.length_append, List.length_cons, List.length_nil]; omega
  have := this h
  simp only [initial, stateCost, queueCost, workersCost, List.length_nil] at this
  omega

/-- C38: the destructor returns on every execution that is continued long enough. -/
theorem C38_returns (ops : List Op) (tr : List Event) (s : State) (h : Exec (initial ops) tr s)
    (hmax : ∀ e s', ¬ Step s e s') : s.phase = .returned := by
  apply Classical.byContradiction
  intro hr
  obtain ⟨e, s', hs⟩ := C38_no_deadlock ops tr s h hr
  exact hmax e s' hs

/-- C38: without `StartWorkers` no task is ever run. -/
theorem C38_not_started (ops : List Op) (hw : .spawn ∉ ops) (tr : List Event) (s : State)
    (h : Exec (initial ops) tr s) : begunIn tr = [] := by
  suffices s.workers = [] ∧ .spawn ∉ s.ops ∧ begunIn tr = [] from this.2.2
  generalize hi : initial ops = s0 at h
  induction h with
  | nil => subst hi; exact ⟨rfl, hw, rfl⟩
  | snoc _ hs ih =>
    obtain ⟨h1, h2, h3⟩ := ih
    cases hs <;> simp_all [begunIn]

/-- One worker and one task that schedules another one. -/
def lateOps : List Op := [.spawn, .schedule (.mk 0 [.mk 1 []])]

/-- The task that schedules another one begins before the destructor and continues after it: the
second task is scheduled behind the shutdown signal and never begins. -/
theorem C38_late_task_dropped : ∃ tr s, Exec (initial lateOps) tr s ∧ s.phase = .returned ∧
    scheduledIn tr = [.mk 0 [.mk 1 []], .mk 1 []] ∧ begunIn tr = [.mk 0 [.mk 1 []]] := by
  have e0 : Exec (initial lateOps) [] (initial lateOps) := .nil
  have e1 := e0.snoc .spawn
  have e2 := e1.snoc .schedule
  have e3 := e2.snoc (.begin (a := []))
  have e4 := e3.snoc .shutdown
  have e5 := e4.snoc (.work (a := []))
  have e6 := e5.snoc (.finish (a := []))
  have e7 := e6.snoc (.stop (a := []))
  have e8 := e7.snoc (.join rfl)
  have e9 := e8.snoc (.return_ (ws := [.stopped]))
  exact ⟨_, _, e9, rfl, rfl, rfl⟩

/-- The hypotheses of `C38_all_executed` are met by an execution of this pool. -/
example : ∃ tr s, .spawn ∈ lateOps ∧ Exec (initial lateOps) tr s ∧ s.phase = .returned := by
  obtain ⟨tr, s, h, hr, _⟩ := C38_late_task_dropped
  exact ⟨tr, s, by simp [lateOps], h, hr⟩

end Nisaba.Props
