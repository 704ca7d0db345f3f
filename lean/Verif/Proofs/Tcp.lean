import Verif.Model.Tcp

namespace Verif

theorem packI_ok {n : Nat} (h : n < 2 ^ 32) :
    ∃ b, packI n = .ok b ∧ b.length = 4 ∧ unpackI b = .ok n := by
  refine ⟨_, if_pos h, rfl, ?_⟩
  simp only [unpackI, Fin.ofNat]
  congr 1
  omega

theorem packI_error {n : Nat} (h : 2 ^ 32 ≤ n) : packI n = .error .structError :=
  if_neg (by omega)

theorem packI_some {n : Nat} {b : Bytes} (h : packI n = .ok b) :
    n < 2 ^ 32 ∧ b.length = 4 ∧ unpackI b = .ok n := by
  by_cases hn : n < 2 ^ 32
  · obtain ⟨b', h1, h2, h3⟩ := packI_ok hn
    rw [h] at h1
    cases h1
    exact ⟨hn, h2, h3⟩
  · rw [packI_error (by omega)] at h
    cases h

namespace Tcp

variable {M S : Type}

/-- The bytes of a message on the wire. -/
def frame (P : Pickle M) (m : M) : Bytes :=
  match P.dumps m with
  | .error _ => []
  | .ok data =>
    match packI data.length with
    | .error _ => []
    | .ok size => size ++ data

theorem send_wire (P : Pickle M) (tx : Tx) (m : M) (h : tx.closed = false) :
    (send P tx m false).1 = { tx with wire := tx.wire ++ frame P m } := by
  unfold send frame
  cases P.dumps m with
  | error e => simp
  | ok data =>
    dsimp only
    cases packI data.length with
    | error e => simp
    | ok size => simp [h]

theorem sendAll_wire (P : Pickle M) (ms : List M) (tx : Tx) (h : tx.closed = false) :
    (sendAll P tx ms) = { tx with wire := tx.wire ++ (ms.map (frame P)).flatten } := by
  induction ms generalizing tx with
  | nil => simp [sendAll]
  | cons m ms ih =>
    unfold sendAll at *
    rw [List.foldl_cons, send_wire P tx m h]
    rw [List.map_cons, List.flatten_cons, ← List.append_assoc]
    exact ih { tx with wire := tx.wire ++ frame P m } h

theorem run_ended {P : Pickle M} {bye : M → Bool} {rx : Rx M} {e : Ended} (h : rx.ended = some e) :
    Rx.run P bye rx = rx := by
  unfold Rx.run
  rw [if_pos (by simp [h])]

theorem run_append (P : Pickle M) (bye : M → Bool) (rx : Rx M) (b : Bytes) :
    Rx.run P bye { Rx.run P bye rx with buf := (Rx.run P bye rx).buf ++ b } =
      Rx.run P bye { rx with buf := rx.buf ++ b } := by
  induction rx using Rx.run.induct P bye with
  | case1 rx h => rw [show Rx.run P bye rx = rx by unfold Rx.run; rw [if_pos h]]
  | case2 rx h hw hl e he =>
    have e1 : Rx.run P bye rx = { rx with buf := rx.buf.drop 4, ended := some (.raised e) } := by
      unfold Rx.run
      rw [if_neg h]
      split
      · rw [dif_pos hl, he]
      · simp_all
    have e2 : Rx.run P bye { rx with buf := rx.buf ++ b } =
        { rx with buf := (rx.buf ++ b).drop 4, ended := some (.raised e) } := by
      unfold Rx.run
      rw [if_neg h]
      split
      · rw [dif_pos (by simp; omega)]
        dsimp only
        rw [List.take_append_of_le_length hl, he]
      · simp_all
    rw [e1, e2, List.drop_append_of_le_length hl]
    exact run_ended rfl
  | case3 rx h hw hl size he ih =>
    have e1 : Rx.run P bye rx = Rx.run P bye { rx with buf := rx.buf.drop 4, want := some size } := by
      conv_lhs => unfold Rx.run
      rw [if_neg h]
      split
      · rw [dif_pos hl, he]
      · simp_all
    have e2 : Rx.run P bye { rx with buf := rx.buf ++ b } =
        Rx.run P bye { rx with buf := (rx.buf ++ b).drop 4, want := some size } := by
      conv_lhs => unfold Rx.run
      rw [if_neg h]
      split
      · rw [dif_pos (by simp; omega)]
        dsimp only
        rw [List.take_append_of_le_length hl, he]
      · simp_all
    rw [e1, e2, ih, List.drop_append_of_le_length hl]
  | case4 rx h hw hl =>
    rw [show Rx.run P bye rx = rx by
      unfold Rx.run; rw [if_neg h]; split
      · rw [dif_neg hl]
      · simp_all]
  | case5 rx h size hw hl e he =>
    have e1 : Rx.run P bye rx =
        { rx with buf := rx.buf.drop size, want := none, ended := some (.raised e) } := by
      unfold Rx.run
      rw [if_neg h]
      split
      · simp_all
      · rename_i s hs
        have : s = size := by rw [hw] at hs; exact (Option.some.inj hs).symm
        subst this
        rw [if_pos hl, he]
    have e2 : Rx.run P bye { rx with buf := rx.buf ++ b } =
        { rx with buf := (rx.buf ++ b).drop size, want := none, ended := some (.raised e) } := by
      unfold Rx.run
      rw [if_neg h]
      split
      · simp_all
      · rename_i s hs
        have : s = size := by rw [hw] at hs; exact (Option.some.inj hs).symm
        subst this
        rw [if_pos (by simp; omega)]
        dsimp only
        rw [List.take_append_of_le_length hl, he]
    rw [e1, e2, List.drop_append_of_le_length hl]
    exact run_ended rfl
  | case6 rx h size hw hl m he hb =>
    have e1 : Rx.run P bye rx =
        { rx with buf := rx.buf.drop size, want := none, ended := some .bye } := by
      unfold Rx.run
      rw [if_neg h]
      split
      · simp_all
      · rename_i s hs
        have : s = size := by rw [hw] at hs; exact (Option.some.inj hs).symm
        subst this
        rw [if_pos hl, he]
        dsimp only
        rw [if_pos hb]
    have e2 : Rx.run P bye { rx with buf := rx.buf ++ b } =
        { rx with buf := (rx.buf ++ b).drop size, want := none, ended := some .bye } := by
      unfold Rx.run
      rw [if_neg h]
      split
      · simp_all
      · rename_i s hs
        have : s = size := by rw [hw] at hs; exact (Option.some.inj hs).symm
        subst this
        rw [if_pos (by simp; omega)]
        dsimp only
        rw [List.take_append_of_le_length hl, he]
        dsimp only
        rw [if_pos hb]
    rw [e1, e2, List.drop_append_of_le_length hl]
    exact run_ended rfl
  | case7 rx h size hw hl m he hb ih =>
    have e1 : Rx.run P bye rx =
        Rx.run P bye { rx with buf := rx.buf.drop size, want := none, got := rx.got ++ [m] } := by
      conv_lhs => unfold Rx.run
      rw [if_neg h]
      split
      · simp_all
      · rename_i s hs
        have : s = size := by rw [hw] at hs; exact (Option.some.inj hs).symm
        subst this
        rw [if_pos hl, he]
        dsimp only
        rw [if_neg hb]
    have e2 : Rx.run P bye { rx with buf := rx.buf ++ b } =
        Rx.run P bye { rx with buf := (rx.buf ++ b).drop size, want := none, got := rx.got ++ [m] } := by
      conv_lhs => unfold Rx.run
      rw [if_neg h]
      split
      · simp_all
      · rename_i s hs
        have : s = size := by rw [hw] at hs; exact (Option.some.inj hs).symm
        subst this
        rw [if_pos (by simp; omega)]
        dsimp only
        rw [List.take_append_of_le_length hl, he]
        dsimp only
        rw [if_neg hb]
    rw [e1, e2, ih, List.drop_append_of_le_length hl]
  | case8 rx h size hw hl =>
    rw [show Rx.run P bye rx = rx by
      unfold Rx.run; rw [if_neg h]; split
      · simp_all
      · rename_i s hs
        have : s = size := by rw [hw] at hs; exact (Option.some.inj hs).symm
        subst this
        rw [if_neg hl]]

/-- Two chunks are as good as one. -/
theorem feed_append (P : Pickle M) (bye : M → Bool) (rx : Rx M) (a b : Bytes) :
    (rx.feed P bye a).feed P bye b = rx.feed P bye (a ++ b) := by
  unfold Rx.feed
  rw [run_append]
  simp

theorem run_idle {P : Pickle M} {bye : M → Bool} {rx : Rx M} (h : rx.ended = none) (hw : rx.want = none)
    (hb : rx.buf.length < 4) : Rx.run P bye rx = rx := by
  unfold Rx.run
  rw [if_neg (by simp [h])]
  split
  · rw [dif_neg (by omega)]
  · simp_all

theorem run_header {P : Pickle M} {bye : M → Bool} {rx : Rx M} {size : Bytes} {n : Nat} {rest : Bytes}
    (h : rx.ended = none) (hw : rx.want = none) (hb : rx.buf = size ++ rest) (hl : size.length = 4)
    (hu : unpackI size = .ok n) :
    Rx.run P bye rx = Rx.run P bye { rx with buf := rest, want := some n } := by
  conv_lhs => unfold Rx.run
  rw [if_neg (by simp [h])]
  split
  · rw [dif_pos (by rw [hb]; simp; omega), hb, ← hl, List.take_left, List.drop_left, hu]
  · simp_all

theorem run_body {P : Pickle M} {bye : M → Bool} {rx : Rx M} {data rest : Bytes}
    (h : rx.ended = none) (hw : rx.want = some data.length) (hb : rx.buf = data ++ rest) :
    Rx.run P bye rx = (match P.loads data with
      | .error e => { rx with buf := rest, want := none, ended := some (.raised e) }
      | .ok m =>
        if bye m then { rx with buf := rest, want := none, ended := some .bye }
        else Rx.run P bye { rx with buf := rest, want := none, got := rx.got ++ [m] }) := by
  conv_lhs => unfold Rx.run
  rw [if_neg (by simp [h])]
  split
  · simp_all
  · rename_i s hs
    have : s = data.length := by rw [hw] at hs; exact (Option.some.inj hs).symm
    subst this
    rw [if_pos (by rw [hb]; simp), hb, List.take_left, List.drop_left]
    cases P.loads data <;> rfl

/-- A complete frame at the front of the buffer. -/
theorem run_frame {P : Pickle M} {bye : M → Bool} {rx : Rx M} {m : M} {data rest : Bytes}
    (h : rx.ended = none) (hw : rx.want = none) (hd : P.dumps m = .ok data) (hs : data.length < 2 ^ 32)
    (hb : rx.buf = frame P m ++ rest) :
    Rx.run P bye rx = (match P.loads data with
      | .error e => { rx with buf := rest, want := none, ended := some (.raised e) }
      | .ok m =>
        if bye m then { rx with buf := rest, want := none, ended := some .bye }
        else Rx.run P bye { rx with buf := rest, want := none, got := rx.got ++ [m] }) := by
  obtain ⟨size, h1, h2, h3⟩ := packI_ok hs
  unfold frame at hb
  rw [hd] at hb
  dsimp only at hb
  rw [h1] at hb
  dsimp only at hb
  rw [List.append_assoc] at hb
  rw [run_header h hw hb h2 h3]
  exact run_body (rx := { rx with buf := data ++ rest, want := some data.length }) h rfl rfl

theorem feedAll (P : Pickle M) (bye : M → Bool) (cs : List Bytes) (rx : Rx M)
    (h : Rx.run P bye rx = rx) :
    cs.foldl (Rx.feed P bye) rx = rx.feed P bye cs.flatten := by
  induction cs generalizing rx with
  | nil => simp [Rx.feed, h]
  | cons c cs ih =>
    rw [List.foldl_cons, ih, feed_append]
    · rfl
    · unfold Rx.feed
      have := run_append P bye { rx with buf := rx.buf ++ c } []
      simpa using this

/-- All frames of a list of good messages. -/
theorem run_frames {P : Pickle M} {bye : M → Bool} : ∀ {ms : List M} {rx : Rx M} {rest : Bytes},
    rx.ended = none → rx.want = none →
    (∀ m ∈ ms, ∃ data, P.dumps m = .ok data ∧ data.length < 2 ^ 32 ∧ P.loads data = .ok m ∧ bye m = false) →
    rx.buf = (ms.map (frame P)).flatten ++ rest →
    Rx.run P bye rx = Rx.run P bye { rx with buf := rest, got := rx.got ++ ms }
  | [], rx, rest, _, _, _, hb => by
    simp only [List.map_nil, List.flatten_nil, List.nil_append] at hb
    cases rx; simp_all
  | m :: ms, rx, rest, h, hw, hm, hb => by
    obtain ⟨data, h1, h2, h3, h4⟩ := hm m List.mem_cons_self
    rw [List.map_cons, List.flatten_cons, List.append_assoc] at hb
    rw [run_frame h hw h1 h2 hb, h3]
    dsimp only
    rw [if_neg (by simp [h4])]
    have := run_frames (P := P) (bye := bye) (ms := ms) (rest := rest)
      (rx := { rx with buf := (ms.map (frame P)).flatten ++ rest, want := none, got := rx.got ++ [m] })
      h rfl (fun x hx => hm x (List.mem_cons_of_mem _ hx)) rfl
    rw [this, hw]
    simp

/-- Fewer bytes give fewer messages, never other ones. -/
theorem run_got_prefix (P : Pickle M) (bye : M → Bool) (rx : Rx M) :
    ∃ l, (Rx.run P bye rx).got = rx.got ++ l := by
  induction rx using Rx.run.induct P bye with
  | case1 rx h => exact ⟨[], by unfold Rx.run; rw [if_pos h]; simp⟩
  | case2 rx h hw hl e he =>
    refine ⟨[], ?_⟩
    unfold Rx.run
    rw [if_neg h]
    split
    · rw [dif_pos hl, he]; simp
    · simp_all
  | case3 rx h hw hl size he ih =>
    obtain ⟨l, hl'⟩ := ih
    refine ⟨l, ?_⟩
    unfold Rx.run
    rw [if_neg h]
    split
    · rw [dif_pos hl, he]; exact hl'
    · simp_all
  | case4 rx h hw hl =>
    refine ⟨[], ?_⟩
    unfold Rx.run
    rw [if_neg h]
    split
    · rw [dif_neg hl]; simp
    · simp_all
  | case5 rx h size hw hl e he =>
    refine ⟨[], ?_⟩
    unfold Rx.run
    rw [if_neg h]
    split
    · simp_all
    · rename_i s hs
      have : s = size := by rw [hw] at hs; exact (Option.some.inj hs).symm
      subst this
      rw [if_pos hl, he]; simp
  | case6 rx h size hw hl m he hb =>
    refine ⟨[], ?_⟩
    unfold Rx.run
    rw [if_neg h]
    split
    · simp_all
    · rename_i s hs
      have : s = size := by rw [hw] at hs; exact (Option.some.inj hs).symm
      subst this
      rw [if_pos hl, he]; dsimp only; rw [if_pos hb]; simp
  | case7 rx h size hw hl m he hb ih =>
    obtain ⟨l, hl'⟩ := ih
    refine ⟨m :: l, ?_⟩
    unfold Rx.run
    rw [if_neg h]
    split
    · simp_all
    · rename_i s hs
      have : s = size := by rw [hw] at hs; exact (Option.some.inj hs).symm
      subst this
      rw [if_pos hl, he]; dsimp only; rw [if_neg hb]
      rw [hl']; simp
  | case8 rx h size hw hl =>
    refine ⟨[], ?_⟩
    unfold Rx.run
    rw [if_neg h]
    split
    · simp_all
    · rename_i s hs
      have : s = size := by rw [hw] at hs; exact (Option.some.inj hs).symm
      subst this
      rw [if_neg hl]; simp

end Tcp
end Verif
