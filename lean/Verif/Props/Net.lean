import Verif.Model.Net

/-! # C72, C73, C77: port, address and IO loop of the server -/

namespace Verif

open Net

namespace Spec

/-- What the documentation of `max_port_tries` promises: the sockets of the first successful call of `listen` among
the first `tries`, `NoFreePort` if there is none. -/
def PortsFound (tries : Int) (listen : Nat → Option (List Nat)) : Except NetErr (List Nat) → Prop
  | .ok ports => ∃ i : Nat, (i : Int) < tries ∧ listen i = some ports ∧ ∀ j < i, listen j = none
  | .error e => e = .noFreePort ∧ ∀ i : Nat, (i : Int) < tries → listen i = none

end Spec

open Spec

/-- C72: the full claim for one environment. -/
def C72_statement (tries : Int) (listen : Nat → Option (List Nat)) : Prop :=
  PortsFound tries listen (bindPorts tries listen)

/-- C72, partial.  The full claim (`C72_statement` for all positive numbers of tries) is false (`C72_false`): if the
first call of `listen` succeeds, its sockets are used. -/
theorem C72_first_try_partial {tries : Int} (ht : 0 < tries) {listen : Nat → Option (List Nat)} {ports : List Nat}
    (h : listen 0 = some ports) :
    bindPorts tries listen = .ok ports ∧ C72_statement tries listen := by
  obtain ⟨n, hn⟩ : ∃ n, tries.toNat = n + 1 := ⟨tries.toNat - 1, by omega⟩
  have e : bindPorts tries listen = .ok ports := by
    unfold bindPorts
    rw [hn, List.range_succ_eq_map]
    simp only [portLoop, h]
  refine ⟨e, ?_⟩
  unfold C72_statement
  rw [e]
  exact ⟨0, by simpa using ht, h, fun j hj => absurd hj (Nat.not_lt_zero j)⟩

/-- C72: what happens otherwise.  There is no second try, and `NoFreePort` is never raised. -/
theorem C72_no_retry {tries : Int} (ht : 0 < tries) {listen : Nat → Option (List Nat)} (h : listen 0 = none) :
    bindPorts tries listen = .error .attributeError := by
  obtain ⟨n, hn⟩ : ∃ n, tries.toNat = n + 1 := ⟨tries.toNat - 1, by omega⟩
  unfold bindPorts
  rw [hn, List.range_succ_eq_map]
  simp only [portLoop, h]

private theorem portLoop_ok {tries : Nat} {listen : Nat → Option (List Nat)} :
    ∀ (k a : Nat), a + k = tries → 0 < k → (∀ j < a, listen j = none) →
      PortsFound tries listen (portLoop (some (tries : Int)) listen (List.range' a k)) := by
  intro k
  induction k with
  | zero => intro a h1 h2; omega
  | succ k ih =>
    intro a h1 _ h3
    rw [List.range'_succ, portLoop]
    cases h : listen a with
    | some ports => exact ⟨a, by omega, h, h3⟩
    | none =>
      dsimp only
      have h4 : ∀ j < a + 1, listen j = none := by
        intro j hj
        rcases Nat.lt_succ_iff_lt_or_eq.1 hj with h5 | rfl
        · exact h3 j h5
        · exact h
      split_ifs with hlast
      · refine ⟨rfl, fun i hi => h4 i ?_⟩
        omega
      · exact ih (a + 1) (by omega) (by omega) h4

/-- C72: the loop is right otherwise: with `self.max_port_tries = max_port_tries` in the constructor the claim holds
for every environment. -/
theorem C72_with_attribute {tries : Nat} (ht : 0 < tries) (listen : Nat → Option (List Nat)) :
    PortsFound tries listen (portLoop (some (tries : Int)) listen (List.range tries)) := by
  rw [List.range_eq_range']
  exact portLoop_ok tries 0 (by omega) ht (fun j hj => absurd hj (Nat.not_lt_zero j))

/-- C72 is false: the first port is taken, the second is free, and 1000 tries are allowed. -/
theorem C72_false : ∃ (tries : Int) (listen : Nat → Option (List Nat)), 0 < tries ∧ listen 1 = some [4242] ∧
    ¬ C72_statement tries listen := by
  refine ⟨1000, fun i => if i = 0 then none else some [4242], by decide, rfl, ?_⟩
  unfold C72_statement
  rw [C72_no_retry (by decide) rfl]
  rintro ⟨h, _⟩
  cases h

/-- C73: with an explicit host, that host is used and nothing is probed. -/
theorem C73_host {tries : Int} (ht : 0 < tries) {listen : Nat → Option (List Nat)} {p : Nat} {ps : List Nat}
    (h : listen 0 = some (p :: ps)) (host : String) (detect : Option String) (valid : String → Except NetErr Bool) :
    serverInit (some host) tries listen detect valid = .ok (host, p) := by
  unfold serverInit
  rw [(C72_first_try_partial ht h).1]
  rfl

private theorem probe_all (fails : SockOp → Bool) : ∀ (ops : List SockOp) (o : List Sock),
    (probe fails ops o).1 = true ↔ ∀ op ∈ ops, fails op = false := by
  intro ops
  induction ops with
  | nil => intro o; simp [probe]
  | cons op ops ih =>
    intro o
    rw [probe]
    cases hf : fails op with
    | true => simp [hf]
    | false =>
      simp only [Bool.false_eq_true, if_false, List.mem_cons, forall_eq_or_imp, hf, true_and]
      cases op.opens with
      | some s => exact ih _
      | none => exact ih _

private theorem closeAll_ok (opened : List Sock) : ∀ (ss c : List Sock),
    closeAll (fun _ => false) opened ss c = (.ok (), c ++ ss.filter (fun s => s ∈ opened)) := by
  intro ss
  induction ss with
  | nil => intro c; simp [closeAll]
  | cons s ss ih =>
    intro c
    rw [closeAll]
    by_cases h : s ∈ opened
    · simp [h, ih]
    · simp [h, ih]

private theorem validate_ok (fails : SockOp → Bool) (fits : Bool) :
    validate fails fits (fun _ => false) = (.ok ((probe fails probeOps []).1 && fits), (probe fails probeOps []).2,
      [Sock.conn, .client, .server].filter (fun s => s ∈ (probe fails probeOps []).2)) := by
  unfold validate
  obtain ⟨ok, opened⟩ := probe fails probeOps []
  simp only [closeAll_ok]
  rfl

private theorem mem_probeOps (op : SockOp) : op ∈ probeOps := by
  cases op <;> decide

/-- C73: without a host, the address is the detected one if a test connection to it worked (no call failed and the
data came through), otherwise it is the loopback address.  Nothing is raised (sockets can be closed). -/
theorem C73_detected {tries : Int} (ht : 0 < tries) {listen : Nat → Option (List Nat)} {p : Nat} {ps : List Nat}
    (h : listen 0 = some (p :: ps)) (detect : Option String) (fails : String → SockOp → Bool)
    (fits : String → Bool) :
    ∃ ip, serverInit none tries listen detect (fun a => (validate (fails a) (fits a) (fun _ => false)).1) = .ok (ip, p) ∧
      ∀ a, a ≠ "127.0.0.1" → (ip = a ↔ detect = some a ∧ (∀ op, fails a op = false) ∧ fits a = true) := by
  have hv : ∀ a, (validate (fails a) (fits a) (fun _ => false)).1 = .ok ((probe (fails a) probeOps []).1 && fits a) := by
    intro a
    rw [validate_ok]
  have ha : ∀ a, ((probe (fails a) probeOps []).1 && fits a) = true ↔ (∀ op, fails a op = false) ∧ fits a = true := by
    intro a
    rw [Bool.and_eq_true, probe_all]
    exact and_congr_left fun _ => ⟨fun h op => h op (mem_probeOps op), fun h op _ => h op⟩
  unfold serverInit
  rw [(C72_first_try_partial ht h).1]
  simp only [getAddress]
  cases detect with
  | none => exact ⟨_, rfl, fun a hne => ⟨fun e => absurd e.symm hne, fun e => by cases e.1⟩⟩
  | some d =>
    by_cases hd : d = "127.0.0.1"
    · subst hd
      exact ⟨_, rfl, fun a hne => ⟨fun e => absurd e.symm hne, fun e => Option.some.inj e.1⟩⟩
    · simp only [hd, ne_eq, not_false_eq_true, if_true, hv]
      cases hw : ((probe (fails d) probeOps []).1 && fits d) with
      | true =>
        refine ⟨d, rfl, fun a _ => ⟨?_, fun e => Option.some.inj e.1⟩⟩
        rintro rfl
        exact ⟨rfl, (ha d).1 hw⟩
      | false =>
        refine ⟨_, rfl, fun a hne => ⟨fun e => absurd e.symm hne, ?_⟩⟩
        rintro ⟨e, h1⟩
        cases e
        rw [(ha d).2 h1] at hw
        cases hw

/-- C73: the test leaves no socket open, and closes none twice, whatever fails in between. -/
theorem C73_no_leak (fails : SockOp → Bool) (fits : Bool) :
    (∀ s, s ∈ (validate fails fits (fun _ => false)).2.1 ↔ s ∈ (validate fails fits (fun _ => false)).2.2) ∧
    (validate fails fits (fun _ => false)).2.2.Nodup := by
  rw [validate_ok]
  refine ⟨fun s => ?_, List.Nodup.filter _ (by decide)⟩
  rw [List.mem_filter, decide_eq_true_iff]
  exact ⟨fun h => ⟨by cases s <;> decide, h⟩, fun h => h.2⟩

/-- C73: which sockets the test opens: one for the server if it can be made, one for the client if all calls up to then
work, and the connection if it is accepted.  So `C73_no_leak` is about up to three sockets. -/
theorem C73_opened (fails : SockOp → Bool) (fits : Bool) :
    (Sock.server ∈ (validate fails fits (fun _ => false)).2.1 ↔ fails .newServer = false) ∧
    (Sock.client ∈ (validate fails fits (fun _ => false)).2.1 ↔ ∀ op ∈ probeOps.take 7, fails op = false) ∧
    (Sock.conn ∈ (validate fails fits (fun _ => false)).2.1 ↔ ∀ op ∈ probeOps.take 11, fails op = false) := by
  rw [validate_ok]
  simp only [probeOps, probe, SockOp.opens, List.take_succ_cons, List.take_zero, List.forall_mem_cons,
    List.nil_append]
  cases h0 : fails .newServer with
  | true => simp
  | false =>
  simp only [Bool.false_eq_true, if_false, true_and]
  cases h1 : fails .setsockopt with
  | true => simp
  | false =>
  simp only [Bool.false_eq_true, if_false, true_and]
  cases h2 : fails .timeoutServer with
  | true => simp
  | false =>
  simp only [Bool.false_eq_true, if_false, true_and]
  cases h3 : fails .bind with
  | true => simp
  | false =>
  simp only [Bool.false_eq_true, if_false, true_and]
  cases h4 : fails .listen with
  | true => simp
  | false =>
  simp only [Bool.false_eq_true, if_false, true_and]
  cases h5 : fails .getsockname with
  | true => simp
  | false =>
  simp only [Bool.false_eq_true, if_false, true_and]
  cases h6 : fails .newClient with
  | true => simp
  | false =>
  simp only [Bool.false_eq_true, if_false, true_and]
  cases h7 : fails .timeoutClient with
  | true => simp
  | false =>
  simp only [Bool.false_eq_true, if_false, true_and]
  cases h8 : fails .connect with
  | true => simp
  | false =>
  simp only [Bool.false_eq_true, if_false, true_and]
  cases h9 : fails .sendall with
  | true => simp
  | false =>
  simp only [Bool.false_eq_true, if_false, true_and]
  cases h10 : fails .accept with
  | true => simp
  | false =>
  simp only [Bool.false_eq_true, if_false, true_and]
  cases h11 : fails .timeoutConn with
  | true => simp
  | false =>
  simp only [Bool.false_eq_true, if_false]
  cases h12 : fails .recv with
  | true => simp
  | false =>
  simp only [Bool.false_eq_true, if_false]
  simp

/-- C73: why sockets have to be closable: an `OSError` of `close` leaves the test, and with it the constructor of the
server; the sockets that follow stay open. -/
theorem C73_close_raises : validate (fun _ => false) true (fun s => s == .conn) =
    (.error .osError, [.server, .client, .conn], []) := by decide

-- the second probe fails in `recv`, as it does on macOS; the first works
example : serverInit none 3 (fun _ => some [4242]) (some "10.0.0.7")
    (fun _ => (validate (fun _ => false) true (fun _ => false)).1) = .ok ("10.0.0.7", 4242) := by rfl
example : serverInit none 3 (fun _ => some [4242]) (some "10.0.0.7")
    (fun _ => (validate (fun op => op == .recv) true (fun _ => false)).1) = .ok ("127.0.0.1", 4242) := by rfl

/-! ## C77 -/

namespace Spec

/-- The pid of a new process is not the one of a process that existed before. -/
def FreshPids : List Nat → List LWorld.Op → Prop
  | _, [] => True
  | used, .fork _ pid :: os => pid ∉ used ∧ FreshPids (pid :: used) os
  | used, _ :: os => FreshPids used os

/-- No process calls `IOLooper.clear()`. -/
def NoClear (os : List LWorld.Op) : Prop := ∀ i, .clear i ∉ os

end Spec

namespace LWorld

private def Served (used : List Nat) (p : LProc) : Prop :=
  (∀ q ∈ p.threads, q ∈ used) ∧ p.pid ∈ used ∧
  (p.pid ∈ p.threads → ∃ l, lookup p.loops p.pid = some l ∧ l ∈ p.runs)

private theorem Served.mono {used : List Nat} {p : LProc} (h : Served used p) (q : Nat) : Served (q :: used) p :=
  ⟨fun x hx => List.mem_cons_of_mem _ (h.1 x hx), List.mem_cons_of_mem _ h.2.1, h.2.2⟩

private theorem createIn_ok {used : List Nat} {p : LProc} (h : Served used p) (fresh : Nat) :
    ∃ p' l, createIn fresh p = .ok (p', l) ∧ l ∈ p'.runs ∧ Served used p' := by
  unfold createIn
  by_cases hp : p.pid ∈ p.threads
  · obtain ⟨l, h1, h2⟩ := h.2.2 hp
    rw [if_neg (not_not.2 hp), h1]
    exact ⟨p, l, rfl, h2, h⟩
  · rw [if_pos hp]
    refine ⟨_, _, rfl, by simp, ?_, h.2.1, fun _ => ⟨fresh, by simp [lookup], by simp⟩⟩
    intro q hq
    rcases List.mem_append.1 hq with h1 | h1
    · exact h.1 q h1
    · rw [List.mem_singleton.1 h1]
      exact h.2.1

private theorem proc_set {w : LWorld} {i j : Nat} {x : Option LProc} {f : Nat} {q : LProc}
    (h : proc ⟨w.procs.set i x, f⟩ j = some q) : (i = j ∧ x = some q) ∨ w.proc j = some q := by
  unfold proc at h ⊢
  dsimp only at h
  rw [List.getElem?_set] at h
  by_cases hij : i = j
  · rw [if_pos hij] at h
    split_ifs at h with hl
    exact Or.inl ⟨hij, h⟩
  · rw [if_neg hij] at h
    exact Or.inr h

private theorem proc_lt {w : LWorld} {i : Nat} {p : LProc} (h : w.proc i = some p) : i < w.procs.length := by
  by_contra hl
  unfold proc at h
  rw [List.getElem?_eq_none (Nat.le_of_not_lt hl)] at h
  cases h

private theorem proc_set_self {w : LWorld} {i : Nat} {x : LProc} {f : Nat} (h : i < w.procs.length) :
    proc ⟨w.procs.set i (some x), f⟩ i = some x := by
  unfold proc
  dsimp only
  rw [List.getElem?_set_self h]

private theorem proc_append {w : LWorld} {x q : LProc} {f : Nat} {j : Nat}
    (h : proc ⟨w.procs ++ [some x], f⟩ j = some q) : x = q ∨ w.proc j = some q := by
  unfold proc at h ⊢
  dsimp only at h
  by_cases hl : j < w.procs.length
  · rw [List.getElem?_append_left hl] at h
    exact Or.inr h
  · rw [List.getElem?_append_right (Nat.le_of_not_lt hl)] at h
    cases hk : j - w.procs.length with
    | zero => rw [hk] at h; exact Or.inl (Option.some.inj h)
    | succ k => rw [hk] at h; cases h

private theorem run_served : ∀ (os : List Op) (used : List Nat) (w : LWorld), FreshPids used os →
    (∀ i p, w.proc i = some p → Served used p) →
    ∃ w' used', w.run os = .ok w' ∧ ∀ i p, w'.proc i = some p → Served used' p := by
  intro os
  induction os with
  | nil => intro used w _ h; exact ⟨w, used, rfl, h⟩
  | cons o os ih =>
    intro used w hf h
    have key : ∀ w₁ x used₁, w.step o = .ok (w₁, x) → FreshPids used₁ os → (∀ i p, w₁.proc i = some p → Served used₁ p) →
        ∃ w' used', w.run (o :: os) = .ok w' ∧ ∀ i p, w'.proc i = some p → Served used' p := by
      intro w₁ x used₁ h1 h2 h3
      obtain ⟨w', used', h4, h5⟩ := ih used₁ w₁ h2 h3
      refine ⟨w', used', ?_, h5⟩
      rw [run, h1]
      exact h4
    cases o with
    | create i =>
      cases hp : w.proc i with
      | none => exact key w none used (by simp only [step, hp]) hf h
      | some p =>
        obtain ⟨p', l, h1, _, h2⟩ := createIn_ok (h i p hp) w.fresh
        refine key _ (some l) used (by simp only [step, hp, h1]; rfl) hf ?_
        intro j q hq
        rcases proc_set hq with ⟨_, h3⟩ | h3
        · cases h3; exact h2
        · exact h j q h3
    | clear i =>
      cases hp : w.proc i with
      | none => exact key w none used (by simp only [step, hp]) hf h
      | some p =>
        refine key _ none used (by simp only [step, hp]; rfl) hf ?_
        intro j q hq
        rcases proc_set hq with ⟨_, h3⟩ | h3
        · cases h3
          exact ⟨fun _ hx => (by cases hx), (h i p hp).2.1, fun hx => (by cases hx)⟩
        · exact h j q h3
    | fork i pid =>
      cases hp : w.proc i with
      | none => exact key w none (pid :: used) (by simp only [step, hp]) hf.2 (fun j q hq => (h j q hq).mono pid)
      | some p =>
        refine key _ none (pid :: used) (by simp only [step, hp]; rfl) hf.2 ?_
        intro j q hq
        rcases proc_append hq with rfl | h3
        · exact ⟨((h i p hp).mono pid).1, List.mem_cons_self, fun hx => absurd ((h i p hp).1 _ hx) hf.1⟩
        · exact (h j q h3).mono pid
    | exit i =>
      refine key _ none used rfl hf ?_
      intro j q hq
      rcases proc_set hq with ⟨_, h3⟩ | h3
      · cases h3
      · exact h j q h3

end LWorld

/-- C77, partial.  The full claim has no hypothesis on pids and is false (`C77_false`): if pids are not used again,
nothing raises, and every `IOLooper` object gets a loop whose thread runs in the process that created the object. -/
theorem C77_served_partial {pid : Nat} {os : List LWorld.Op} (hf : FreshPids [pid] os) :
    ∃ w, (LWorld.start pid).run os = .ok w ∧
      ∀ i, (w.proc i).isSome = true → ∃ w' l p, w.step (.create i) = .ok (w', some l) ∧ w'.proc i = some p ∧ l ∈ p.runs := by
  obtain ⟨w, used, h1, h2⟩ := LWorld.run_served os [pid] (LWorld.start pid) hf (by
    intro i p hp
    cases i with
    | zero =>
      cases hp
      exact ⟨fun _ h => (by cases h), List.mem_cons_self, fun h => (by cases h)⟩
    | succ i => cases hp)
  refine ⟨w, h1, fun i hi => ?_⟩
  obtain ⟨p, hp⟩ := Option.isSome_iff_exists.1 hi
  obtain ⟨p', l, h3, h4, _⟩ := LWorld.createIn_ok (h2 i p hp) w.fresh
  exact ⟨_, l, p', by simp only [LWorld.step, hp, h3]; rfl, LWorld.proc_set_self (LWorld.proc_lt hp), h4⟩

/-- C77: there is at most one IO loop per process, as long as nobody calls `clear`. -/
theorem C77_singleton {pid : Nat} {os : List LWorld.Op} (hc : NoClear os) {w : LWorld}
    (h : (LWorld.start pid).run os = .ok w) {i : Nat} {p : LProc} (hp : w.proc i = some p) : p.runs.length ≤ 1 := by
  suffices key : ∀ (os : List LWorld.Op) (w w' : LWorld), NoClear os →
      (∀ i p, w.proc i = some p → p.runs.length ≤ 1 ∧ (p.runs ≠ [] → p.pid ∈ p.threads)) → w.run os = .ok w' →
      ∀ i p, w'.proc i = some p → p.runs.length ≤ 1 ∧ (p.runs ≠ [] → p.pid ∈ p.threads) from
    (key os _ w hc (by
      intro i p hp
      cases i with
      | zero => cases hp; exact ⟨Nat.zero_le 1, fun h => absurd rfl h⟩
      | succ i => cases hp) h i p hp).1
  clear h hp hc w os
  intro os
  induction os with
  | nil => intro w w' _ hw h; cases h; exact hw
  | cons o os ih =>
    intro w w' hc hw h
    have hc' : NoClear os := fun i hi => hc i (List.mem_cons_of_mem _ hi)
    rw [LWorld.run] at h
    cases o with
    | create i =>
      cases hp : w.proc i with
      | none => simp only [LWorld.step, hp] at h; exact ih w w' hc' hw h
      | some p =>
        simp only [LWorld.step, hp] at h
        cases he : LWorld.createIn w.fresh p with
        | error e => rw [he] at h; cases h
        | ok r =>
          obtain ⟨p', l⟩ := r
          rw [he] at h
          refine ih _ w' hc' ?_ h
          intro j q hq
          rcases LWorld.proc_set hq with ⟨_, h3⟩ | h3
          · cases h3
            unfold LWorld.createIn at he
            split_ifs at he with hpid
            · split at he
              · cases he
              · cases he
                exact hw i p hp
            · cases he
              have : p.runs = [] := by
                by_contra hne
                exact hpid ((hw i p hp).2 hne)
              rw [this]
              exact ⟨by simp, fun _ => by simp⟩
          · exact hw j q h3
    | clear i => exact absurd List.mem_cons_self (hc i)
    | fork i pid =>
      cases hp : w.proc i with
      | none => simp only [LWorld.step, hp] at h; exact ih w w' hc' hw h
      | some p =>
        simp only [LWorld.step, hp] at h
        refine ih _ w' hc' ?_ h
        intro j q hq
        rcases LWorld.proc_append hq with rfl | h3
        · exact ⟨by simp, fun hx => absurd rfl hx⟩
        · exact hw j q h3
    | exit i =>
      refine ih _ w' hc' ?_ h
      intro j q hq
      rcases LWorld.proc_set hq with ⟨_, h3⟩ | h3
      · cases h3
      · exact hw j q h3

/-- C77: after `clear`, the next object gets a new loop, and the thread of the old one goes on: the process has one more
loop than before. -/
theorem C77_cleared {w w1 : LWorld} {i : Nat} {p : LProc} (hp : w.proc i = some p) {o : Option Nat}
    (h1 : w.step (.clear i) = .ok (w1, o)) :
    ∃ w2 q, w1.step (.create i) = .ok (w2, some w.fresh) ∧ w2.proc i = some q ∧ q.runs = p.runs ++ [w.fresh] ∧
      q.threads = [q.pid] ∧ q.loops = [(q.pid, w.fresh)] := by
  simp only [LWorld.step, hp] at h1
  cases h1
  have hq : LWorld.proc { w with procs := w.procs.set i (some { p with threads := [], loops := [] }) } i =
      some { p with threads := [], loops := [] } := LWorld.proc_set_self (LWorld.proc_lt hp)
  refine ⟨⟨(w.procs.set i (some { p with threads := [], loops := [] })).set i
    (some ⟨p.pid, [p.pid], [(p.pid, w.fresh)], p.runs ++ [w.fresh]⟩), w.fresh + 1⟩, _, ?_,
    LWorld.proc_set_self (LWorld.proc_lt hq), rfl, rfl, rfl⟩
  simp only [LWorld.step, hq]
  rfl

/-- C77: `run_blockwise` calls `clear` before it starts a server (`convenience.py` 46).  So every call leaves a thread
with a loop behind: after `n` calls the process runs `n` more loops than before, of which it uses one. -/
theorem C77_leaks (n : Nat) : ∀ {w : LWorld} {i : Nat} {p : LProc}, w.proc i = some p →
    ∃ w' q, w.run (List.flatten (List.replicate n [.clear i, .create i])) = .ok w' ∧ w'.proc i = some q ∧
      q.runs.length = p.runs.length + n ∧ (0 < n → q.loops.length = 1) := by
  induction n with
  | zero => exact fun {w i p} hp => ⟨w, p, rfl, hp, rfl, fun h => absurd h (Nat.lt_irrefl 0)⟩
  | succ n ih =>
    intro w i p hp
    have h1 : w.step (.clear i) = .ok ({ w with procs := w.procs.set i (some { p with threads := [], loops := [] }) }, none) := by
      simp only [LWorld.step, hp]
    obtain ⟨w2, q, h2, h3, h4, _, h6⟩ := C77_cleared hp h1
    obtain ⟨w', q', h7, h8, h9, h10⟩ := ih h3
    refine ⟨w', q', ?_, h8, by rw [h9, h4]; simp; omega, fun _ => ?_⟩
    · rw [List.replicate_succ, List.flatten_cons, List.cons_append, List.cons_append, List.nil_append, LWorld.run, h1]
      dsimp only
      rw [LWorld.run, h2]
      exact h7
    · cases n with
      | zero => 
        simp only [List.replicate_zero, List.flatten_nil, LWorld.run] at h7
        cases h7
        rw [h3] at h8
        cases h8
        rw [h6]; rfl
      | succ n => exact h10 (Nat.succ_pos n)

example : ∃ w q, (LWorld.start 100).run [.clear 0, .create 0, .clear 0, .create 0] = .ok w ∧
    w.proc 0 = some q ∧ q.runs = [0, 1] ∧ q.loops = [(100, 1)] := ⟨_, _, rfl, rfl, rfl, rfl⟩

/-- C77 is false: a process that gets the pid of a dead grandparent finds the entry of that grandparent, and uses a loop
that nobody runs. -/
theorem C77_false : ∃ (os : List LWorld.Op) (w w' : LWorld) (p : LProc), NoClear os ∧ (LWorld.start 100).run os = .ok w ∧
    w.step (.create 2) = .ok (w', some 0) ∧ w'.proc 2 = some p ∧ p.runs = [] := by
  refine ⟨[.create 0, .fork 0 101, .exit 0, .fork 1 100], _, _, ⟨100, [100], [(100, 0)], []⟩, ?_, rfl, rfl, rfl, rfl⟩
  intro i hi
  simp at hi

-- server and client in one process share the loop; a worker gets its own
example : ∃ w, (LWorld.start 100).run [.create 0, .create 0, .fork 0 101, .create 1] = .ok w ∧
    w.proc 0 = some ⟨100, [100], [(100, 0)], [0]⟩ ∧ w.proc 1 = some ⟨101, [100, 101], [(101, 2), (100, 0)], [2]⟩ ∧
    FreshPids [100] [.create 0, .create 0, .fork 0 101, .create 1] :=
  ⟨_, rfl, rfl, rfl, by simp [FreshPids]⟩

end Verif
