import Verif.Model.PingTime
import Verif.Props.ShutTime
/-!
C129: how soon a remote instance ends when the server is lost or has stopped the stage.
-/
namespace Finch

/-- No attempt that ends after `T` is answered with 200: the server cannot be reached, or the stage was stopped. -/
def NoOk (T wait : Nat) : Nat → List (Attempt × Nat) → Prop
  | _, [] => True
  | start, (a, d) :: as => (T < start + d → ∀ body, a.res ≠ .status 200 body) ∧ NoOk T wait (start + d + wait) as

/-- A request that ends after `T` is not answered with 200. -/
theorem noOk_request (tries : Int) (wait T : Nat) : ∀ (as : List (Attempt × Nat)) (k start : Nat) (buf : Bytes),
    NoOk T wait start as → T < start + reqTime tries wait k as →
    ∀ body, (reqLoop tries k buf (as.map (·.1))).2 ≠ some (.ok 200 body)
  | [], k, start, buf, _, _, body => by
    simp only [List.map_nil, reqLoop]
    split <;> simp
  | (a, d) :: as, k, start, buf, h, ht, body => by
    obtain ⟨h1, h2⟩ := h
    simp only [List.map_cons, reqLoop]
    simp only [reqTime] at ht
    by_cases hm : moreTries tries k = true
    · rw [if_pos hm] at ht ⊢
      have retry : T < start + (if a.cancelled = true then d else d + wait + reqTime tries wait (k + 1) as) →
          (if a.cancelled = true then ([buf], some ReqRes.ctxErr)
            else (buf :: (reqLoop tries (k + 1) (buf.drop a.consumed) (as.map (·.1))).1,
              (reqLoop tries (k + 1) (buf.drop a.consumed) (as.map (·.1))).2)).2 ≠ some (.ok 200 body) := by
        intro ht
        by_cases hc : a.cancelled = true
        · rw [if_pos hc]; simp
        · rw [if_neg hc] at ht ⊢
          exact noOk_request tries wait T as (k + 1) (start + d + wait) _ h2 (by omega) body
      cases hr : a.res with
      | doErr =>
        rw [hr] at ht
        exact retry ht
      | readErr => simp
      | status code b =>
        rw [hr] at ht
        simp only [] at ht ⊢
        by_cases h200 : code = 200
        · rw [if_pos h200] at ht
          subst h200
          exact absurd hr (h1 ht b)
        · rw [if_neg h200] at ht ⊢
          by_cases h205 : code = 205
          · rw [if_pos h205]
            simp only [ne_eq, Option.some.injEq, ReqRes.ok.injEq]
            omega
          · rw [if_neg h205] at ht ⊢
            exact retry ht
    · rw [if_neg hm]; simp

/-- A response is 200 or 205. -/
theorem request_code (tries : Int) : ∀ (as : List Attempt) (k : Nat) (buf : Bytes) (code : Nat) (body : Bytes),
    (reqLoop tries k buf as).2 = some (.ok code body) → code = 200 ∨ code = 205
  | [], k, buf, code, body, h => by
    simp only [reqLoop] at h
    split at h <;> simp at h
  | a :: as, k, buf, code, body, h => by
    simp only [reqLoop] at h
    by_cases hm : moreTries tries k = true
    · rw [if_pos hm] at h
      have retry : (if a.cancelled = true then ([buf], some ReqRes.ctxErr)
            else (buf :: (reqLoop tries (k + 1) (buf.drop a.consumed) as).1,
              (reqLoop tries (k + 1) (buf.drop a.consumed) as).2)).2 = some (.ok code body) → code = 200 ∨ code = 205 := by
        intro h
        by_cases hc : a.cancelled = true
        · rw [if_pos hc] at h; simp at h
        · rw [if_neg hc] at h
          exact request_code tries as (k + 1) _ code body h
      cases hr : a.res with
      | doErr => rw [hr] at h; exact retry h
      | readErr => rw [hr] at h; simp at h
      | status c b =>
        rw [hr] at h
        simp only [] at h
        by_cases h200 : c = 200
        · rw [if_pos h200] at h
          simp only [Option.some.injEq, ReqRes.ok.injEq] at h
          omega
        · rw [if_neg h200] at h
          by_cases h205 : c = 205
          · rw [if_pos h205] at h
            simp only [Option.some.injEq, ReqRes.ok.injEq] at h
            omega
          · rw [if_neg h205] at h
            exact retry h
    · rw [if_neg hm] at h; simp at h

/-- The turns of the loop, from the time `now` on, are possible: sleeps are late by at most `late`, attempts end with their
timeout, requests return, and from `T` on nothing is answered with 200. -/
def Turns (T late : Nat) : Nat → List (Nat × List (Attempt × Nat)) → Prop
  | _, [] => True
  | now, (sleep, as) :: rest =>
    sleep ≤ 1000 + late ∧ (∀ a ∈ as, a.2 ≤ pingLimit.timeout) ∧ (request pingLimit.tries [] (as.map (·.1))).2 ≠ none ∧
    NoOk T pingLimit.wait (now + sleep) as ∧
    Turns T late (now + sleep + reqTime pingLimit.tries pingLimit.wait 0 as) rest

/-- **C129.** When the server is lost or has stopped the stage at the time `T`, the run of a remote instance is cancelled at
most four seconds later, whenever in the loop that happens. -/
theorem C129_cancelled (T late : Nat) : ∀ (ps : List (Nat × List (Attempt × Nat))) (now : Nat), now ≤ T → Turns T late now ps →
    (pingLoop now ps).1 ≤ T + 4000 + late ∧ (T < (pingLoop now ps).1 → (pingLoop now ps).2 ≠ none)
  | [], now, hn, _ => by
    simp only [pingLoop]
    exact ⟨by omega, fun h => by omega⟩
  | (sleep, as) :: rest, now, hn, ⟨h1, h2, h3, h4, h5⟩ => by
    have ht : reqTime pingLimit.tries pingLimit.wait 0 as ≤ 3000 := C124_request 5 100 500 as h2
    rw [pingLoop]
    cases hr : (request pingLimit.tries [] (as.map (·.1))).2 with
    | none => exact absurd hr h3
    | some r =>
      cases r with
      | ok code body =>
        simp only []
        by_cases h205 : code = 205
        · rw [if_pos h205]
          exact ⟨by simp only; omega, fun _ => by simp⟩
        · rw [if_neg h205]
          have h200 : code = 200 := by
            rcases request_code _ _ _ _ _ _ hr with h | h
            · exact h
            · exact absurd h h205
          subst h200
          by_cases hT : T < now + sleep + reqTime pingLimit.tries pingLimit.wait 0 as
          · exact absurd hr (noOk_request _ _ T as 0 (now + sleep) [] h4 hT body)
          · exact C129_cancelled T late rest _ (by omega) h5
      | ctxErr => exact ⟨by simp only; omega, fun _ => by simp⟩
      | readErr => exact ⟨by simp only; omega, fun _ => by simp⟩
      | failed => exact ⟨by simp only; omega, fun _ => by simp⟩

/-- **C129.** And it has ended, with its statistics sent or given up and the server told or given up, at most eleven
seconds after `T`, if late timers, the ticker and printing take at most 0.2 seconds. -/
theorem C129_ended {β : Type} (T late : Nat) (ps : List (Nat × List (Attempt × Nat))) (now : Nat) (hn : now ≤ T)
    (hps : Turns T late now ps)
    (groups : List (List Nat)) (before : List SAct) (after : List (SAct × Nat)) (d : Nat)
    (hd : ∀ a ∈ after, a.2 ≤ d) (freq : Nat) (ops : List (FinalOp β)) (s s' : FinalSt β)
    (h : FinalSt.new.run freq ops = some s) (hs : s.step freq .stop = some s')
    (es : List (StopTurn (List (Nat × β)))) (st' : Stopping (List (Nat × β))) (loop : Nat)
    (hl : stopLoop collectorTimeout ⟨s'.coll, s'.stopped⟩ 0 es = .ok (st', loop))
    (ends : Option Nat) (lateStop : Nat) (as : List (Attempt × Nat)) (ha : ∀ a ∈ as, a.2 ≤ doneLimit.timeout)
    (ticker print : Nat) (hp : late + 10 * d + ticker + print + lateStop ≤ 200) :
    (pingLoop now ps).1 + (spinTime groups ((SState.init.run groups before).step groups .cancel) after + ticker + loop +
      serverStop ends lateStop + print + reqTime doneLimit.tries doneLimit.wait 0 as) ≤ T + 11000 := by
  have h0 := (C129_cancelled T late ps now hn hps).1
  have h1 : spinTime groups ((SState.init.run groups before).step groups .cancel) after ≤ 10 * d :=
    C128_stage groups before after d hd
  have h2 : loop = 0 := (stopLoop_some es (by simp [stop_one freq ops s s' h hs]) hl).2
  have h3 : reqTime doneLimit.tries doneLimit.wait 0 as ≤ 1800 := C124_request 3 100 500 as ha
  have h4 : serverStop ends lateStop ≤ 5000 + lateStop := by
    have h5 : stopWait = 5000 := rfl
    unfold serverStop
    split
    · split <;> omega
    · omega
  omega

/-- **C129.** It is not cancelled otherwise: as long as one of the first five attempts of each ping is answered with 200, and
those before it failed, the run goes on. -/
theorem C129_goes_on (ps : List (Nat × List (Attempt × Nat)))
    (h : ∀ p ∈ ps, ∃ (pre : List (Attempt × Nat)) (a : Attempt) (d : Nat) (body : Bytes), p.2 = pre ++ [(a, d)] ∧ pre.length < 5 ∧
      a.res = .status 200 body ∧ ∀ x ∈ pre, x.1.cancelled = false ∧ (x.1.res = .doErr ∨ ∃ c b, x.1.res = .status c b ∧ c ≠ 200 ∧ c ≠ 205))
    (now : Nat) : (pingLoop now ps).2 = none := by
  have key : ∀ (pre : List (Attempt × Nat)) (k : Nat) (buf : Bytes) (a : Attempt) (d : Nat) (body : Bytes),
      k + pre.length < 5 → a.res = .status 200 body →
      (∀ x ∈ pre, x.1.cancelled = false ∧ (x.1.res = .doErr ∨ ∃ c b, x.1.res = .status c b ∧ c ≠ 200 ∧ c ≠ 205)) →
      (reqLoop 5 k buf ((pre ++ [(a, d)]).map (·.1))).2 = some (.ok 200 body) := by
    intro pre
    induction pre with
    | nil =>
      intro k buf a d body hk ha _
      have hm : moreTries 5 k = true := by
        rw [moreTries_iff]
        unfold Allowed
        simp only [List.length_nil] at hk
        omega
      simp [reqLoop, hm, ha]
    | cons x pre ih =>
      intro k buf a d body hk ha hx
      obtain ⟨x, dx⟩ := x
      have hm : moreTries 5 k = true := by
        rw [moreTries_iff]
        unfold Allowed
        simp only [List.length_cons] at hk
        omega
      have hrest := ih (k + 1) (buf.drop x.consumed) a d body (by simp only [List.length_cons] at hk; omega) ha
        fun y hy => hx y (List.mem_cons_of_mem _ hy)
      obtain ⟨hc, hres⟩ := hx (x, dx) (by simp)
      simp only at hc hres
      rw [List.cons_append, List.map_cons, reqLoop, if_pos hm]
      rcases hres with hres | ⟨c, b, hres, h1, h2⟩
      · simp only [hres, hc, Bool.false_eq_true, if_false]
        exact hrest
      · simp only [hres, hc, Bool.false_eq_true, if_false, h1, h2]
        exact hrest
  induction ps generalizing now with
  | nil => rfl
  | cons p ps ih =>
    obtain ⟨sleep, as⟩ := p
    obtain ⟨pre, a, d, body, e, hl, ha, hx⟩ := h (sleep, as) (by simp)
    simp only at e
    rw [pingLoop]
    have hr : (request pingLimit.tries [] (as.map (·.1))).2 = some (.ok 200 body) := by
      rw [e]
      exact key pre 0 [] a d body (by omega) ha hx
    rw [hr]
    simp only []
    rw [if_neg (by decide)]
    exact ih (fun q hq => h q (List.mem_cons_of_mem _ hq)) _

/-! ### Examples -/

/-- A ping that is answered, then the server is lost at 1500: five attempts time out, and the run is cancelled at 5010. -/
def exPings : List (Nat × List (Attempt × Nat)) :=
  [(1000, [(⟨.status 200 [], 0, false⟩, 10)]), (1000, List.replicate 5 (⟨.doErr, 0, false⟩, 500))]

example : Turns 1500 0 0 exPings ∧ pingLoop 0 exPings = (5010, some .lost) := by
  refine ⟨?_, by decide +kernel⟩
  simp only [exPings, Turns, List.replicate, NoOk]
  refine ⟨by decide, by decide, by decide, ⟨fun h => absurd h (by decide), trivial⟩, by decide, by decide, by decide, ?_, trivial⟩
  simp

/-- Five refused connections take half a second: a server that refuses connections for so long is lost. -/
example : pingLoop 0 [(1000, List.replicate 5 (⟨.doErr, 0, false⟩, 0))] = (1500, some .lost) := by decide +kernel

/-- The stage was stopped. -/
example : pingLoop 0 [(1000, [(⟨.doErr, 0, false⟩, 500), (⟨.status 205 [], 0, false⟩, 3)])] = (1603, some .stopped) := by
  decide +kernel

end Finch
