import Verif.Spec.Ibuf

/-!
# C100: a message buffer is a queue of bytes
-/

set_option autoImplicit false

namespace Gmid.Props
open Gmid.Spec

/-! ## Numbers -/

theorem leBytes_length (w v : Nat) : (leBytes w v).length = w := by
  induction w generalizing v with
  | zero => rfl
  | succ w ih => simp [leBytes, ih]

theorem digits256_snoc (w v : Nat) : digits256 (w + 1) v = digits256 w (v / 256) ++ [UInt8.ofNat (v % 256)] := by
  induction w generalizing v with
  | zero =>
    simp only [digits256, Nat.pow_zero, Nat.div_one, List.nil_append, List.cons.injEq, and_true]
    apply UInt8.toNat_inj.mp
    simp
  | succ w ih =>
    rw [digits256, ih, digits256]
    have e1 : v / 256 ^ (w + 1) = v / 256 / 256 ^ w := by rw [Nat.pow_succ, Nat.mul_comm, Nat.div_div_eq_div_mul]
    have e2 : v % 256 ^ (w + 1) / 256 = v / 256 % 256 ^ w := by
      rw [Nat.pow_succ, Nat.mul_comm, Nat.mod_mul_right_div_self]
    have e3 : v % 256 ^ (w + 1) % 256 = v % 256 := by
      rw [Nat.mod_mod_of_dvd]
      exact ⟨256 ^ w, by rw [Nat.pow_succ, Nat.mul_comm]⟩
    rw [e1, e2, e3]
    simp

theorem leBytes_digits (w v : Nat) (h : v < 256 ^ w) : (leBytes w v).reverse = digits256 w v := by
  induction w generalizing v with
  | zero => rfl
  | succ w ih =>
    rw [leBytes, List.reverse_cons, ih, digits256_snoc]
    rw [Nat.pow_succ] at h
    omega

theorem numBytes_eq (net : Bool) (w v : Nat) (h : v < 256 ^ w) : numBytes net w v = encodes net w v := by
  unfold numBytes encodes
  rw [← leBytes_digits w v h]
  cases net <;> simp

theorem valueOf_snoc (l : Bytes) (c : UInt8) : valueOf (l ++ [c]) = valueOf l * 256 + c.toNat := by
  induction l with
  | nil => simp [valueOf]
  | cons a l ih =>
    simp only [List.cons_append, valueOf, ih, List.length_append, List.length_cons, List.length_nil, Nat.pow_succ]
    rw [Nat.add_mul, Nat.mul_assoc]
    omega

theorem leNum_value (d : Bytes) : leNum d = valueOf d.reverse := by
  induction d with
  | nil => rfl
  | cons c r ih => rw [leNum, List.reverse_cons, valueOf_snoc, ih]; omega

theorem numOf_eq (net : Bool) (d : Bytes) : numOf net d = decodesTo net d := by
  unfold numOf decodesTo
  cases net <;> simp [leNum_value]

theorem numBytes_length (net : Bool) (w v : Nat) : (numBytes net w v).length = w := by
  unfold numBytes
  cases net <;> simp [leBytes_length]

/-! ## The buffer and the queue -/

/-- the buffer holds the queue, and has memory -/
structure Holds (b : Ibuf) (q : Queue) : Prop where
  mem : ∃ m, b.mem = some m ∧ m.take b.wpos = q.taken ++ q.data ∧ b.wpos ≤ m.length
  rpos : b.rpos = q.taken.length
  wpos : b.wpos = q.taken.length + q.data.length
  cap : q.cap = if b.stack then none else some b.max
  max : b.stack = false → b.size ≤ b.max
  fits : b.size < sizeMod ∧ b.max < sizeMod

theorem Holds.size {b : Ibuf} {q : Queue} (h : Holds b q) : ibufSize b = q.data.length := by
  have := h.rpos; have := h.wpos; have := h.fits
  obtain ⟨m, hm, _, hl⟩ := h.mem
  have : b.size = m.length := by simp [Ibuf.size, hm]
  unfold ibufSize
  have : b.wpos + sizeMod - b.rpos = q.data.length + sizeMod := by omega
  rw [this, Nat.add_mod_right, Nat.mod_eq_of_lt]
  omega

theorem wr_ok {b : Ibuf} {m : Bytes} (hm : b.mem = some m) (off : Nat) (d : Bytes) (h : off + d.length ≤ m.length) :
    b.wr off d = .ok { b with mem := some (m.take off ++ d ++ m.drop (off + d.length)) } := by
  unfold Ibuf.wr
  rw [if_pos (by simpa [Ibuf.size, hm] using h), hm]
  rfl

theorem rd_ok {b : Ibuf} {m : Bytes} (hm : b.mem = some m) (off n : Nat) (h : off + n ≤ m.length) : b.rd off n = .ok ((m.drop off).take n) := by
  unfold Ibuf.rd
  rw [if_pos (by simpa [Ibuf.size, hm] using h), hm]
  rfl

theorem take_splice (m d : Bytes) (off : Nat) (h : off + d.length ≤ m.length) :
    (m.take off ++ d ++ m.drop (off + d.length)).take (off + d.length) = m.take off ++ d := by
  rw [List.take_append_of_le_length (by simp; omega), List.take_of_length_le (by simp; omega)]

/-- reserving and then writing -/
theorem reserve_holds {b : Ibuf} {q : Queue} (h : Holds b q) (ok : Bool) (d : Bytes) :
    (∃ b' b'', ibufReserve ok b d.length = (b', some b.wpos) ∧ b'.wr b.wpos d = .ok b'' ∧ q.Room d.length ∧ Holds b'' { q with data := q.data ++ d }) ∨
    (ibufReserve ok b d.length = (b, none) ∧ (¬ q.Room d.length ∨ ok = false)) := by
  obtain ⟨m, hm, hmt, hml⟩ := h.mem
  have hs : b.size = m.length := by simp [Ibuf.size, hm]
  have hfit := h.fits
  have hw := h.wpos
  have hr := h.rpos
  have hcap := h.cap
  have hmax := h.max
  have hroom : q.Room d.length ↔ b.stack = false ∧ b.wpos + d.length ≤ b.max := by
    unfold Queue.Room
    rw [hcap]
    cases b.stack
    · simp; omega
    · simp
  unfold ibufReserve
  split
  · exact .inr ⟨rfl, .inl (by rw [hroom]; rintro ⟨_, h2⟩; omega)⟩
  split
  · exact .inr ⟨rfl, .inl (by rw [hroom]; rintro ⟨h1, _⟩; simp_all)⟩
  rename_i hst
  have hst : b.stack = false := by simpa using hst
  have hmax := hmax hst
  split
  · split
    · exact .inr ⟨rfl, .inl (by rw [hroom]; rintro ⟨_, h2⟩; omega)⟩
    split
    · exact .inr ⟨rfl, .inr (by simp_all)⟩
    · refine .inl ⟨_, _, rfl, wr_ok rfl _ _ ?_, ?_, ?_⟩
      · simp [hm, hs]; omega
      · rw [hroom]; exact ⟨hst, by omega⟩
      · have e1 : (m ++ List.replicate (b.wpos + d.length - m.length) (0 : UInt8)).length = b.wpos + d.length := by simp; omega
        have e2 : ((b.mem.getD []) ++ List.replicate (b.wpos + d.length - b.size) (0 : UInt8)) = m ++ List.replicate (b.wpos + d.length - m.length) 0 := by
          rw [hm, hs]; rfl
        have e3 : (m ++ List.replicate (b.wpos + d.length - m.length) (0 : UInt8)).take b.wpos = q.taken ++ q.data := by
          rw [List.take_append_of_le_length hml, hmt]
        simp only [e2]
        have e4 : (m ++ List.replicate (b.wpos + d.length - m.length) (0 : UInt8)).drop (b.wpos + d.length) = [] := by
          rw [List.drop_eq_nil_iff]; omega
        rw [e3, e4]
        refine ⟨⟨_, rfl, ?_, ?_⟩, hr, by simp; omega, hcap, ?_, ?_⟩
        · dsimp only
          rw [List.take_of_length_le (by simp; omega)]; simp
        · simp; omega
        · intro _; simp [Ibuf.size]; omega
        · simp [Ibuf.size]; omega
  · refine .inl ⟨{ b with wpos := b.wpos + d.length }, { b with wpos := b.wpos + d.length, mem := some (m.take b.wpos ++ d ++ m.drop (b.wpos + d.length)) },
      by simp [hm], wr_ok (b := { b with wpos := b.wpos + d.length }) (m := m) hm _ _ (by omega), ?_, ?_⟩
    · rw [hroom]; exact ⟨hst, by omega⟩
    · refine ⟨⟨_, rfl, ?_, ?_⟩, hr, by simp; omega, hcap, ?_, ?_⟩
      · dsimp only
        rw [take_splice _ _ _ (by omega), hmt]; simp
      · simp; omega
      · intro _; simp [Ibuf.size]; omega
      · simp [Ibuf.size]; omega

theorem add_holds {b : Ibuf} {q : Queue} (h : Holds b q) (ok : Bool) (d : Bytes) :
    ∃ b' o, ibufAdd ok b d = .ok (b', o) ∧
      ((∃ q', (q', o) = q.push d ∧ Holds b' q') ∨ (ok = false ∧ o = .failed ∧ Holds b' q)) := by
  unfold ibufAdd Queue.push
  rcases reserve_holds h ok d with ⟨b', b'', e1, e2, e3, e4⟩ | ⟨e1, e2⟩
  · rw [e1]
    dsimp only
    rw [e2]
    exact ⟨_, _, rfl, .inl ⟨_, by rw [if_pos e3], e4⟩⟩
  · rw [e1]
    refine ⟨_, _, rfl, ?_⟩
    rcases e2 with e2 | e2
    · exact .inl ⟨q, by rw [if_neg e2], h⟩
    · exact .inr ⟨e2, rfl, h⟩

theorem addZero_holds {b : Ibuf} {q : Queue} (h : Holds b q) (ok : Bool) (n : Nat) :
    ∃ b' o, ibufAddZero ok b n = .ok (b', o) ∧
      ((∃ q', (q', o) = q.push (List.replicate n 0) ∧ Holds b' q') ∨ (ok = false ∧ o = .failed ∧ Holds b' q)) := by
  have := add_holds h ok (List.replicate n 0)
  unfold ibufAdd at this
  unfold ibufAddZero
  simpa using this

theorem splice_holds (m t q d : Bytes) (pos wpos : Nat) (hmt : m.take wpos = t ++ q) (hw : wpos = t.length + q.length) (hml : wpos ≤ m.length)
    (hp : pos + d.length ≤ q.length) :
    (m.take (t.length + pos) ++ d ++ m.drop (t.length + pos + d.length)).take wpos = t ++ (q.take pos ++ d ++ q.drop (pos + d.length)) := by
  have hm' : m = t ++ (q ++ m.drop wpos) := by rw [← List.append_assoc, ← hmt, List.take_append_drop]
  generalize m.drop wpos = r at hm'
  subst hm'
  have t1 : (t ++ (q ++ r)).take (t.length + pos) = t ++ q.take pos := by
    rw [List.take_append, List.take_of_length_le (by omega), Nat.add_sub_cancel_left, List.take_append_of_le_length (by omega)]
  have t2 : (t ++ (q ++ r)).drop (t.length + pos + d.length) = q.drop (pos + d.length) ++ r := by
    rw [Nat.add_assoc, List.drop_append, List.drop_eq_nil_of_le (by omega), Nat.add_sub_cancel_left, List.drop_append_of_le_length hp]
    rfl
  rw [t1, t2]
  have : t ++ q.take pos ++ d ++ (q.drop (pos + d.length) ++ r) = (t ++ (q.take pos ++ d ++ q.drop (pos + d.length))) ++ r := by
    simp only [List.append_assoc]
  have hl : (t ++ (q.take pos ++ d ++ q.drop (pos + d.length))).length = wpos := by
    simp only [List.length_append, List.length_take, List.length_drop]
    omega
  rw [this, ← hl, List.take_left']
  rfl

theorem set_holds {b : Ibuf} {q : Queue} (h : Holds b q) (pos : Nat) (d : Bytes) :
    ∃ b' o q', ibufSet b pos d = .ok (b', o) ∧ (q', o) = q.put pos d ∧ Holds b' q' := by
  obtain ⟨m, hm, hmt, hml⟩ := h.mem
  have hs : b.size = m.length := by simp [Ibuf.size, hm]
  have hfit := h.fits
  have hw := h.wpos
  have hr := h.rpos
  have hsz := h.size
  by_cases hp : pos + d.length ≤ q.data.length
  · have hc : ¬ (q.data.length < pos ∨ sizeMod - 1 - pos < d.length ∨ q.data.length < pos + d.length) := by omega
    have hk : ibufSeek b pos d.length = some (b.rpos + pos) := by
      unfold ibufSeek
      rw [hsz, if_neg hc, hm]
      rfl
    have hwr := wr_ok hm (b.rpos + pos) d (by omega)
    have hlen : (m.take (b.rpos + pos) ++ d ++ m.drop (b.rpos + pos + d.length)).length = m.length := by
      simp only [List.length_append, List.length_take, List.length_drop]
      omega
    refine ⟨{ b with mem := some (m.take (b.rpos + pos) ++ d ++ m.drop (b.rpos + pos + d.length)) }, .done,
      { q with data := q.data.take pos ++ d ++ q.data.drop (pos + d.length) }, ?_, ?_, ⟨_, rfl, ?_, ?_⟩, hr, ?_, h.cap, ?_, ?_⟩
    · rw [ibufSet, hk, ibufPut, hwr]
    · unfold Queue.put; rw [if_pos hp]
    · dsimp only
      rw [hr]
      exact splice_holds m q.taken q.data d pos b.wpos hmt hw hml hp
    · dsimp only; omega
    · simp only [List.length_append, List.length_take, List.length_drop]; omega
    · intro hst
      have := h.max hst
      simp only [Ibuf.size, Option.getD_some] at this ⊢
      rw [hlen]
      rw [hm] at this
      exact this
    · simp only [Ibuf.size, Option.getD_some]
      rw [hlen, ← hs]
      exact hfit
  · have hc : q.data.length < pos ∨ sizeMod - 1 - pos < d.length ∨ q.data.length < pos + d.length := by omega
    have hk : ibufSeek b pos d.length = none := by
      unfold ibufSeek
      rw [hsz, if_pos hc]
    refine ⟨b, .failed, q, ?_, ?_, h⟩
    · rw [ibufSet, hk, ibufPut]
    · unfold Queue.put; rw [if_neg hp]

theorem pop_holds {b : Ibuf} {q : Queue} (h : Holds b q) (n : Nat) (hn : n ≤ q.data.length) :
    b.rd b.rpos n = .ok (q.data.take n) ∧
      Holds { b with rpos := b.rpos + n } { q with taken := q.taken ++ q.data.take n, data := q.data.drop n } := by
  obtain ⟨m, hm, hmt, hml⟩ := h.mem
  have hw := h.wpos
  have hr := h.rpos
  constructor
  · rw [rd_ok hm _ _ (by omega)]
    have hm' : m = (q.taken ++ q.data) ++ m.drop b.wpos := by rw [← hmt, List.take_append_drop]
    rw [hm', hr]
    simp [List.take_append_of_le_length hn]
  · refine ⟨⟨m, hm, ?_, hml⟩, ?_, ?_, h.cap, h.max, h.fits⟩
    · simp [hmt]
    · simp; omega
    · simp; omega

theorem step_holds {b : Ibuf} {q : Queue} (h : Holds b q) (ok : Bool) (op : IbufOp) :
    ∃ b' o q', ibufStep ok b op = .ok (b', o) ∧ q.Step ok op q' o ∧ Holds b' q' := by
  have hsz := h.size
  have lift : ∀ {x : Res (Ibuf × IbufOut)} {d : Bytes}, (∃ b' o, x = .ok (b', o) ∧
      ((∃ q', (q', o) = q.push d ∧ Holds b' q') ∨ (ok = false ∧ o = .failed ∧ Holds b' q))) → q.step op = q.push d →
      ∃ b' o q', x = .ok (b', o) ∧ q.Step ok op q' o ∧ Holds b' q' := by
    rintro x d ⟨b', o, e1, ⟨q', e2, e3⟩ | ⟨e2, e3, e4⟩⟩ e
    · exact ⟨b', o, q', e1, .inl (by rw [e, e2]), e3⟩
    · exact ⟨b', o, q, e1, .inr ⟨e2, rfl, e3⟩, e4⟩
  have num : ∀ w v : Nat, (v > 256 ^ w - 1) ↔ ¬ v < 256 ^ w := by
    intro w v
    have : 0 < 256 ^ w := Nat.pow_pos (by decide)
    omega
  cases op with
  | add d => exact lift (add_holds h ok d) rfl
  | addNum net w v =>
    simp only [ibufStep, ibufAddNum, num]
    by_cases hv : v < 256 ^ w
    · simp only [hv, not_true, if_false]
      refine lift (add_holds h ok _) ?_
      rw [numBytes_eq net w v hv]
      simp [Queue.step, hv]
    · simp only [hv, not_false_eq_true, if_true]
      exact ⟨_, _, q, rfl, .inl (by simp [Queue.step, hv]), h⟩
  | addZero n => exact lift (addZero_holds h ok n) rfl
  | set pos d =>
    obtain ⟨b', o, q', e1, e2, e3⟩ := set_holds h pos d
    exact ⟨b', o, q', e1, .inl e2, e3⟩
  | setNum pos net w v =>
    simp only [ibufStep, ibufSetNum, num]
    by_cases hv : v < 256 ^ w
    · simp only [hv, not_true, if_false]
      obtain ⟨b', o, q', e1, e2, e3⟩ := set_holds h pos (numBytes net w v)
      exact ⟨b', o, q', e1, .inl (by rw [e2, numBytes_eq net w v hv]; simp [Queue.step, hv]), e3⟩
    · simp only [hv, not_false_eq_true, if_true]
      exact ⟨_, _, q, rfl, .inl (by simp [Queue.step, hv]), h⟩
  | truncate n =>
    simp only [ibufStep, ibufTruncate, hsz]
    by_cases hn : n ≤ q.data.length
    · rw [if_pos (by omega)]
      refine ⟨_, _, { q with data := q.data.take n }, rfl, .inl (by simp only [Queue.step, hn, if_true]), ?_⟩
      obtain ⟨m, hm, hmt, hml⟩ := h.mem
      have hw := h.wpos
      have hr := h.rpos
      refine ⟨⟨m, hm, ?_, ?_⟩, hr, ?_, h.cap, h.max, h.fits⟩
      · dsimp only
        have : m.take (b.rpos + n) = (m.take b.wpos).take (b.rpos + n) := by rw [List.take_take, Nat.min_eq_left (by omega)]
        rw [this, hmt, hr, List.take_append, List.take_of_length_le (by omega), Nat.add_sub_cancel_left]
      · dsimp only; omega
      · simp; omega
    · rw [if_neg (by omega)]
      have e : q.step (.truncate n) = q.push (List.replicate (n - q.data.length) 0) := by simp only [Queue.step, hn, if_false]
      cases hst : b.stack with
      | true =>
        refine ⟨b, .failed, q, by simp, .inl ?_, h⟩
        rw [e]
        unfold Queue.push
        rw [if_neg]
        rintro ⟨c, hc, _⟩
        rw [h.cap, hst] at hc
        cases hc
      | false =>
        simp only [Bool.false_eq_true, if_false]
        exact lift (addZero_holds h ok _) e
  | rewind =>
    refine ⟨_, _, _, rfl, .inl rfl, ?_⟩
    obtain ⟨m, hm, hmt, hml⟩ := h.mem
    exact ⟨⟨m, hm, by simpa [ibufRewind] using hmt, hml⟩, rfl, by simp [ibufRewind, h.wpos], h.cap, h.max, h.fits⟩
  | get n =>
    simp only [ibufStep, ibufGet, hsz]
    by_cases hn : n ≤ q.data.length
    · have := pop_holds h n hn
      rw [if_neg (by omega), this.1]
      exact ⟨_, _, _, rfl, .inl (by simp only [Queue.step, Queue.pop, hn, if_true]), this.2⟩
    · rw [if_pos (by omega)]
      exact ⟨_, _, q, rfl, .inl (by simp only [Queue.step, Queue.pop, hn, if_false]), h⟩
  | getNum net w =>
    by_cases hn : w ≤ q.data.length
    · have := pop_holds h w hn
      have hg : ibufGet b w = .ok ({ b with rpos := b.rpos + w }, .bytes (q.data.take w)) := by
        rw [ibufGet, hsz, if_neg (by omega), this.1]
      refine ⟨_, .num (decodesTo net (q.data.take w)), _, ?_, .inl ?_, this.2⟩
      · rw [ibufStep, ibufGetNum, hg, ← numOf_eq]; rfl
      · simp only [Queue.step, Queue.pop, hn, if_true]
    · have hg : ibufGet b w = .ok (b, .failed) := by rw [ibufGet, hsz, if_pos (by omega)]
      refine ⟨b, .failed, q, ?_, .inl ?_, h⟩
      · rw [ibufStep, ibufGetNum, hg]; rfl
      · simp only [Queue.step, Queue.pop, hn, if_false]
  | getString n =>
    simp only [ibufStep, ibufGetString, hsz]
    by_cases hn : n ≤ q.data.length
    · have := pop_holds h n hn
      rw [if_neg (by omega), this.1]
      cases ok with
      | true =>
        refine ⟨{ b with rpos := b.rpos + n }, .bytes ((q.data.take n).takeWhile (· != 0)), _, by simp only [if_true], .inl ?_, this.2⟩
        simp only [Queue.step, Queue.pop, hn, if_true]
        congr 3
        funext x
        by_cases hx : x = 0 <;> simp [hx]
      | false => exact ⟨b, .failed, q, by simp, .inr ⟨rfl, rfl, rfl⟩, h⟩
    · rw [if_pos (by omega)]
      exact ⟨_, _, q, rfl, .inl (by simp only [Queue.step, Queue.pop, hn, if_false]), h⟩
  | skip n =>
    simp only [ibufStep, ibufSkip, hsz]
    by_cases hn : n ≤ q.data.length
    · have := pop_holds h n hn
      rw [if_neg (by omega)]
      exact ⟨_, _, _, rfl, .inl (by simp only [Queue.step, Queue.pop, hn, if_true]), this.2⟩
    · rw [if_pos (by omega)]
      exact ⟨_, _, q, rfl, .inl (by simp only [Queue.step, Queue.pop, hn, if_false]), h⟩
  | size => exact ⟨_, _, q, rfl, .inl (by simp [Queue.step, hsz]), h⟩
  | left =>
    refine ⟨_, _, q, rfl, .inl ?_, h⟩
    have hfit := h.fits
    have hw := h.wpos
    obtain ⟨m, hm, hmt, hml⟩ := h.mem
    have hs : b.size = m.length := by simp [Ibuf.size, hm]
    simp only [Queue.step, ibufLeft, h.cap, Prod.mk.injEq, IbufOut.num.injEq, true_and]
    cases hst : b.stack with
    | true => simp
    | false =>
      have := h.max hst
      simp only [Bool.false_eq_true, if_false, Option.getD_some, Option.isSome_some, if_true]
      have : b.max + sizeMod - b.wpos = (b.max - b.wpos) + sizeMod := by omega
      rw [this, Nat.add_mod_right, Nat.mod_eq_of_lt (by omega)]
      omega

theorem run_holds {b : Ibuf} {q : Queue} (h : Holds b q) (l : List (Bool × IbufOp)) :
    ∃ b' os q', ibufRun b l = .ok (b', os) ∧ Queue.Runs q l q' os := by
  induction l generalizing b q with
  | nil => exact ⟨b, [], q, rfl, .nil q⟩
  | cons x r ih =>
    obtain ⟨ok, op⟩ := x
    obtain ⟨b1, o, q1, e1, e2, e3⟩ := step_holds h ok op
    obtain ⟨b2, os, q2, f1, f2⟩ := ih e3
    exact ⟨b2, o :: os, q2, by rw [ibufRun, e1]; dsimp only; rw [f1], .cons e2 f2⟩

/-- C100: whatever is done to a buffer of a fixed size, no memory but its own is touched and every call returns what a queue of that size would. -/
theorem C100_open (len : Nat) (h0 : 0 < len) (hlen : len < 2 ^ 64) (calls : List (Bool × IbufOp)) :
    ∃ b os q, ibufRun (ibufOpen len) calls = .ok (b, os) ∧ Queue.Runs ⟨[], [], some len⟩ calls q os := by
  refine run_holds ?_ calls
  unfold ibufOpen
  rw [if_pos h0]
  exact ⟨⟨_, rfl, by simp, by simp⟩, rfl, rfl, rfl, by simp [Ibuf.size], by simp [Ibuf.size]; omega⟩

/-- C100: the same for buffers that grow, up to their maximum. -/
theorem C100_dynamic (len max : Nat) (h0 : 0 < len) (hmax : len ≤ max) (hlen : max < 2 ^ 64) (calls : List (Bool × IbufOp)) :
    ∃ b0 b os q, ibufDynamic len max = some b0 ∧ ibufRun b0 calls = .ok (b, os) ∧ Queue.Runs ⟨[], [], some max⟩ calls q os := by
  have e : ibufDynamic len max = some { mem := some (List.replicate len 0), max := max } := by
    unfold ibufDynamic
    rw [if_neg (by omega), if_pos h0]
  have : Holds { mem := some (List.replicate len 0), max := max } ⟨[], [], some max⟩ :=
    ⟨⟨_, rfl, by simp, by simp⟩, rfl, rfl, rfl, by simp [Ibuf.size]; omega, by simp only [Ibuf.size, Option.getD_some, List.length_replicate, sizeMod]; omega⟩
  obtain ⟨b, os, q, h1, h2⟩ := run_holds this calls
  exact ⟨_, b, os, q, e, h1, h2⟩

/-- C100: the same for the buffers a received message is read from, which cannot be added to. -/
theorem C100_from_buffer (d : Bytes) (hlen : d.length < 2 ^ 64) (calls : List (Bool × IbufOp)) :
    ∃ b os q, ibufRun (ibufFromBuffer d) calls = .ok (b, os) ∧ Queue.Runs ⟨[], d, none⟩ calls q os := by
  refine run_holds ?_ calls
  exact ⟨⟨_, rfl, by simp [ibufFromBuffer], by simp [ibufFromBuffer]⟩, rfl, by simp [ibufFromBuffer], rfl, by simp [ibufFromBuffer],
    by simp [Ibuf.size, ibufFromBuffer]; omega⟩

theorem digits256_length (w v : Nat) : (digits256 w v).length = w := by
  induction w generalizing v with
  | zero => rfl
  | succ w ih => simp [digits256, ih]

theorem valueOf_digits (w v : Nat) (h : v < 256 ^ w) : valueOf (digits256 w v) = v := by
  induction w generalizing v with
  | zero => simp at h; simp [digits256, valueOf, h]
  | succ w ih =>
    have hp : 0 < 256 ^ w := Nat.pow_pos (by decide)
    have hd : v / 256 ^ w < 256 := by
      rw [Nat.div_lt_iff_lt_mul hp, Nat.mul_comm, ← Nat.pow_succ]; exact h
    rw [digits256, valueOf, ih _ (Nat.mod_lt _ hp), digits256_length, UInt8.toNat_ofNat', Nat.mod_eq_of_lt hd]
    exact Nat.div_add_mod' v (256 ^ w)

/-- C100: a number is read back as it was written. -/
theorem C100_numbers (net : Bool) (w v : Nat) (h : v < 256 ^ w) : (encodes net w v).length = w ∧ decodesTo net (encodes net w v) = v := by
  unfold encodes decodesTo
  cases net <;> simp [digits256_length, valueOf_digits w v h]

/-- C100: a buffer can be had exactly if it may hold something and is not larger at first than it may become. -/
theorem C100_refused (len max : Nat) : (ibufDynamic len max).isSome = true ↔ 0 < max ∧ len ≤ max := by
  unfold ibufDynamic
  by_cases h1 : max = 0 ∨ max < len
  · rw [if_pos h1]
    simp
    omega
  · rw [if_neg h1]
    split <;> simp <;> omega

example : (ibufDynamic 0 1).isSome = true ∧ (ibufDynamic 2 1).isSome = false := by decide

/-- C100 needs a buffer of at least a byte: adding nothing to one that has no memory is reported as an error. -/
theorem C100_empty_add : ∃ b0, ibufDynamic 0 100 = some b0 ∧ (ibufRun b0 [(true, .add [])]).val?.map (·.2) = some [.failed] ∧
    (ibufRun b0 [(true, .add b%"x"), (true, .add [])]).val?.map (·.2) = some [.done, .done] := by
  exact ⟨_, rfl, by decide +kernel, by decide +kernel⟩

/-- a message is put together, its length filled in, and read back -/
example : (ibufRun (ibufOpen 8) [(true, .addNum true 2 0), (true, .add b%"abc"), (true, .setNum 0 true 2 5), (true, .add b%"too long"), (true, .left),
      (true, .getNum true 2), (true, .get 4), (true, .getString 3), (true, .rewind), (true, .truncate 3), (true, .get 3)]).val?.map (·.2) =
    some [.done, .done, .done, .failed, .num 3, .num 5, .failed, .bytes b%"abc", .done, .done, .bytes [0, 5, 97]] := by
  decide +kernel

end Gmid.Props
