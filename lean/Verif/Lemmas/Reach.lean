import Verif.Lemmas.ReadFrom
import Verif.Props.Action

/-! Helper lemmas: new buffered dispatchers, and an invariant of all the histories. -/

namespace Upd
open Spec TypeList

variable {σ : Type}

/-! ## New dispatchers -/

theorem le_neededMax {K : Keyring} {d : Decl} (hd : d ∈ K.decls) :
    d.sig.parametersSize ≤ (max11 (K.decls.map (·.sig.parametersSize))).getD 0 := by
  obtain ⟨m, h1, _, h2⟩ := max11_spec (l := K.decls.map (·.sig.parametersSize)) (by
    intro h; rw [List.map_eq_nil_iff] at h; rw [h] at hd; simp at hd)
  rw [h1]
  exact h2 _ (List.mem_map.2 ⟨d, hd, rfl⟩)

theorem sum_sizeof_ge {ts : List Ty} (h : ∀ t ∈ ts, wireSize t ≤ t.sizeof) : wireSizes ts ≤ (ts.map Ty.sizeof).sum := by
  induction ts with
  | nil => simp [wireSizes]
  | cons t ts ih =>
    simp only [wireSizes, List.map_cons, List.sum_cons]
    have := h t (by simp)
    have := ih fun u hu => h u (by simp [hu])
    omega

theorem parametersSize_ge {g : Sig} (h : ∀ t ∈ g.params, wireSize t ≤ t.sizeof) : wireSizes g.params ≤ g.parametersSize := by
  rw [Sig.parametersSize, sum11_eq]
  have := sum_sizeof_ge h
  omega

theorem makeAction_inputSize {f : Features} {e : Endian} {s : Mode} {cb : Callback σ} (hg : SigOk cb.sig)
    (hw : f = .weakReference → ∀ t ∈ cb.sig.params, t.sizeof = wireSize t) :
    (makeAction f e s cb).inputSize = .ok (wireSizes cb.sig.params) := by
  cases f with
  | any => exact (C32_action_sizes hg).1
  | weakReference => simp only [makeAction, Action.inputSize, parametersSize_eq (hw rfl)]

theorem protoOf_get {K : Keyring} {defs : Nat → List Val → Eff σ (Option Val)} {i : Nat} {cb : Callback σ}
    (h : (protoOf K defs).cbs[i]? = some cb) :
    ∃ hi : i < K.decls.length, cb = ⟨K.decls[i].sig, defs K.decls[i].name⟩ := by
  simp only [protoOf, List.getElem?_map, Option.map_eq_some_iff] at h
  obtain ⟨d, hd, rfl⟩ := h
  obtain ⟨hi, rfl⟩ := List.getElem?_eq_some_iff.1 hd
  exact ⟨hi, rfl⟩

theorem protoOf_mem {K : Keyring} {defs : Nat → List Val → Eff σ (Option Val)} {cb : Callback σ}
    (h : cb ∈ (protoOf K defs).cbs) : ∃ d ∈ K.decls, cb = ⟨d.sig, defs d.name⟩ := by
  simp only [protoOf, List.mem_map] at h
  obtain ⟨d, hd, rfl⟩ := h
  exact ⟨d, hd, rfl⟩

theorem protoOf_at {K : Keyring} {defs : Nat → List Val → Eff σ (Option Val)} {i : Nat} (hi : i < K.decls.length) :
    (protoOf K defs).cbs[i]? = some ⟨K.decls[i].sig, defs K.decls[i].name⟩ := by
  simp [protoOf, hi]

theorem setting_serves {P : Platform} {K : Keyring} {f : Features} {defs : Nat → List Val → Eff σ (Option Val)}
    (h : Setting P K f defs) : Serves P (protoOf K defs) (Dispatcher.make K f defs) where
  e := rfl
  s := rfl
  idx := rfl
  pos := (idxBytes_pos h.ring.1).1
  sup := h.sup
  size := by
    show K.size = _
    rw [K.size_eq h.ring.1]
    simp [protoOf]
  act := by
    intro i cb hcb
    obtain ⟨hi, rfl⟩ := protoOf_get hcb
    refine ⟨_, make_acts hi, makeAction_holds _ _ _ _, ?_⟩
    exact makeAction_inputSize (h.ring.2 _ (List.getElem_mem _))
      fun hf t ht => (h.sizes _ (List.getElem_mem hi) t ht).2 hf
  sig := by
    intro cb hcb
    obtain ⟨d, hd, rfl⟩ := protoOf_mem hcb
    exact h.ring.2 d hd
  typed := by
    intro cb hcb
    obtain ⟨d, hd, rfl⟩ := protoOf_mem hcb
    exact h.typed d hd

theorem fresh_ilen (P : Platform) (K : Keyring) (f : Features) (defs : Nat → List Val → Eff σ (Option Val)) (sizeMax : Nat)
    (shared : Bool) : (fresh P K f defs sizeMax shared).ibuf.length = neededInput K := by
  cases shared
  · exact junkBytes_length P _
  · show (P.junkBytes _).length = _
    rw [junkBytes_length]
    show (if neededOutput K > neededInput K then neededOutput K else neededInput K) = _
    rw [if_neg (by unfold neededInput neededOutput; omega)]

theorem fresh_outLen (P : Platform) (K : Keyring) (f : Features) (defs : Nat → List Val → Eff σ (Option Val)) (sizeMax : Nat)
    (shared : Bool) :
    (fresh P K f defs sizeMax shared).out.length = if shared then neededInput K else neededOutput K := by
  cases shared
  · exact junkBytes_length P _
  · exact fresh_ilen P K f defs sizeMax true

theorem fresh_shared (P : Platform) (K : Keyring) (f : Features) (defs : Nat → List Val → Eff σ (Option Val)) (sizeMax : Nat)
    (shared : Bool) : (fresh P K f defs sizeMax shared).shared = shared := by
  cases shared <;> rfl

theorem fresh_disp (P : Platform) (K : Keyring) (f : Features) (defs : Nat → List Val → Eff σ (Option Val)) (sizeMax : Nat)
    (shared : Bool) : (fresh P K f defs sizeMax shared).disp = Dispatcher.make K f defs := by
  cases shared <;> rfl

theorem fresh_ok {P : Platform} {K : Keyring} {f : Features} {defs : Nat → List Val → Eff σ (Option Val)}
    (h : Setting P K f defs) (sizeMax : Nat) (shared : Bool) :
    BufOk P (protoOf K defs) (fresh P K f defs sizeMax shared) where
  serves := by rw [fresh_disp]; exact setting_serves h
  idxRoom := by
    rw [fresh_ilen]; show K.idxBytes ≤ _
    unfold neededInput; omega
  room := by
    intro cb hcb
    obtain ⟨d, hd, rfl⟩ := protoOf_mem hcb
    rw [fresh_ilen]
    show K.idxBytes + wireSizes d.sig.params ≤ _
    have h1 := le_neededMax hd
    have h2 := parametersSize_ge fun t ht => (h.sizes d hd t ht).1
    unfold neededInput; omega

theorem fresh_rel {P : Platform} {K : Keyring} {f : Features} {defs : Nat → List Val → Eff σ (Option Val)}
    (h : Setting P K f defs) (sizeMax : Nat) (shared : Bool) :
    Rel (protoOf K defs) (fresh P K f defs sizeMax shared) Machine.init := by
  have hpos : 1 ≤ (protoOf K defs).idxBytes := (idxBytes_pos h.ring.1).1
  constructor
  · cases shared <;> exact relIn_empty hpos rfl rfl rfl
  · cases shared <;> exact ⟨rfl, Nat.zero_le _, slice_zero _ _⟩

theorem fresh_outRoom {P : Platform} {K : Keyring} {f : Features} {defs : Nat → List Val → Eff σ (Option Val)} {sizeMax : Nat}
    {shared : Bool} (h : ResponsesFit K shared) : OutRoom (protoOf K defs) (fresh P K f defs sizeMax shared) := by
  intro cb hcb
  obtain ⟨d, hd, rfl⟩ := protoOf_mem hcb
  rw [fresh_outLen]
  exact h d hd

/-! ## Outcomes of the member functions -/

theorem unread_exists {b : Buf σ} (h1 : b.obufNext ≤ b.obufBottom) (h2 : b.obufBottom ≤ b.out.length) :
    ∃ out, Unread b out := by
  have hl : (slice b.out b.obufNext (b.obufBottom - b.obufNext)).length = b.obufBottom - b.obufNext :=
    slice_length (by omega)
  exact ⟨slice b.out b.obufNext (b.obufBottom - b.obufNext), by rw [hl]; omega, h2, by rw [hl]⟩

theorem unread_any {b b' : Buf σ} {out : List Byte} (h : Unread b out) (hs : Same b b') (ho : OutSame b b') :
    ∃ out, Unread b' out :=
  unread_exists (by rw [ho.next, ho.bottom]; have := h.bottom; omega) (by rw [ho.bottom, hs.outLen]; exact h.le)

/-- A callback of the protocol throws. -/
def Throws (p : Proto σ) : Prop := ∃ cb ∈ p.cbs, ∃ args w w', cb.fn args w = .threw w'

/-- Faults which `put` may lead to: a response too large, bytes which cannot be decoded, a callback which faults. -/
def PutFault (P : Platform) (p : Proto σ) (b : Buf σ) (f : Fault) : Prop :=
  (f = .obufOverrun ∧ ∃ cb ∈ p.cbs, b.out.length < retSize cb.sig.ret) ∨
    (DecodeFault f ∧ ∃ cb ∈ p.cbs, ¬ DecodeSafeAll P p.e p.s cb.sig.params) ∨
    ∃ cb ∈ p.cbs, ∃ args w, cb.fn args w = .fault f

theorem PutFault.same {P : Platform} {p : Proto σ} {b b' : Buf σ} {f : Fault} (h : PutFault P p b' f) (hs : Same b b') : PutFault P p b f := by
  rcases h with ⟨h1, cb, h2, h3⟩ | h | h
  · exact Or.inl ⟨h1, cb, h2, by rw [← hs.outLen]; exact h3⟩
  · exact Or.inr (Or.inl h)
  · exact Or.inr (Or.inr h)

theorem put_outcome {P : Platform} (hP : P.Valid) {p : Proto σ} {b : Buf σ} {m : Machine} (h : Rel p b m)
    (hb : BufOk P p b) (x : Byte) (w : σ) :
    match Buf.put P x (b, w) with
    | .ret st (b', w') => Same b b' ∧
        ((st = .loading ∧ RelIn p b' (m.pending ++ [x]) ∧ OutSame b b' ∧ w' = w) ∨
          (st = .dropped ∧ RelIn p b' [] ∧ OutSame b b' ∧ w' = w) ∨
          (st = .resolved ∧ RelIn p b' [] ∧ ∃ out, Unread b' out))
    | .threw _ => Throws p
    | .fault f => PutFault P p b f := by
  rcases put_cases hP h.inp hb x w with ⟨_, b1, h1, h2, h3, h4⟩ | ⟨_, b1, h1, h2, h3, h4⟩ | ⟨cb, args, _, hm, hl, h0⟩
  · rw [h1]; exact ⟨h3, Or.inl ⟨rfl, h2, h4, rfl⟩⟩
  · rw [h1]; exact ⟨h3, Or.inr (Or.inl ⟨rfl, h2, h4, rfl⟩)⟩
  · rcases h0 with ⟨_, ⟨r, w1, _, _, ⟨b1, h1, h2, h4, h3⟩ | ⟨h2, h1⟩⟩ | ⟨w1, b1, h2, h1⟩ | ⟨f, h2, h1⟩⟩ | ⟨f, h2, h3, h1⟩
    · rw [h1]; exact ⟨h3, Or.inr (Or.inr ⟨rfl, h2, _, h4⟩)⟩
    · rw [h1]; exact Or.inl ⟨rfl, cb, hm, h2⟩
    · rw [h1]; exact ⟨cb, hm, _, _, _, h2⟩
    · rw [h1]; exact Or.inr (Or.inr ⟨cb, hm, _, _, h2⟩)
    · rw [h1]
      refine Or.inr (Or.inl ⟨h2, cb, hm, fun hd => ?_⟩)
      have hg := hb.serves.sig cb hm
      have := (readAll_decodeSafe hP hb.serves.sup hg.1 hg.2.1 hd hl).1
      rw [h3] at this
      cases this

theorem feed_outcome {P : Platform} (hP : P.Valid) {p : Proto σ} {src : Eff σ Byte} : ∀ {n : Nat} {b : Buf σ} {m : Machine}
    {w : σ}, Rel p b m → BufOk P p b → b.ibuf.length - m.pending.length ≤ n →
    match feed P src n (b, w) with
    | .ret st (b', _) => st ≠ .loading ∧ Same b b' ∧ RelIn p b' [] ∧ ∃ out, Unread b' out
    | .threw (b', w') => Throws p ∨ ((∃ w1, src w1 = .threw w') ∧ Same b b' ∧ OutSame b b' ∧ ∃ m', Rel p b' m')
    | .fault f => PutFault P p b f ∨ ∃ w1, src w1 = .fault f
  | 0, b, m, w, h, hb, hn => by have := h.inp.lt hb; omega
  | n + 1, b, m, w, h, hb, hn => by
    rw [feed_step]
    rcases onWorld_cases src b w with ⟨x, w1, _, h1⟩ | ⟨w1, h0, h1⟩ | ⟨f', h0, h1⟩
    · rw [Eff.bind_ret h1]
      have hput := put_outcome hP h hb x w1
      revert hput
      cases he : Buf.put P x (b, w1) with
      | fault f => rw [Eff.bind_fault he]; exact fun h => Or.inl h
      | threw t => rw [Eff.bind_threw he]; exact fun h => Or.inl h
      | ret st t =>
        obtain ⟨b', w'⟩ := t
        rw [Eff.bind_ret he]
        rintro ⟨hs, ⟨rfl, h2, h3, _⟩ | ⟨rfl, h2, h3, _⟩ | ⟨rfl, h2, h3⟩⟩
        · obtain ⟨out, ho⟩ := unread_any h.outp hs h3
          have := feed_outcome hP (src := src) (n := n) (m := ⟨m.pending ++ [x], out⟩) (w := w') ⟨h2, ho⟩ (hb.same hs)
            (by rw [hs.ilen]; simp; omega)
          simp only [if_true]
          revert this
          cases feed P src n (b', w') with
          | ret st t => rintro ⟨h4, h5, h6⟩; exact ⟨h4, hs.trans h5, h6⟩
          | threw t =>
            rintro (h4 | ⟨h4, h5, h6, h7⟩)
            · exact Or.inl h4
            · exact Or.inr ⟨h4, hs.trans h5, ⟨h6.obuf.trans h3.obuf, h6.next.trans h3.next, h6.bottom.trans h3.bottom⟩, h7⟩
          | fault f =>
            rintro (h4 | h4)
            · exact Or.inl (h4.same hs)
            · exact Or.inr h4
        · exact ⟨by simp, hs, h2, unread_any h.outp hs h3⟩
        · exact ⟨by simp, hs, h2, h3⟩
    · rw [Eff.bind_threw h1]
      exact Or.inr ⟨⟨w, h0⟩, Same.refl b, ⟨rfl, rfl, rfl⟩, m, h⟩
    · rw [Eff.bind_fault h1]
      exact Or.inr ⟨w, h0⟩

theorem readFrom_outcome {P : Platform} (hP : P.Valid) {p : Proto σ} (src : Eff σ Byte) {b : Buf σ} {m : Machine}
    (h : Rel p b m) (hb : BufOk P p b) (w : σ) :
    match Buf.readFrom P src (b, w) with
    | .ret st (b', _) => st ≠ .loading ∧ Same b b' ∧ RelIn p b' [] ∧ ∃ out, Unread b' out
    | .threw (b', w') => Throws p ∨ ((∃ w1, src w1 = .threw w') ∧ Same b b' ∧ OutSame b b' ∧ ∃ m', Rel p b' m')
    | .fault f => PutFault P p b f ∨ ∃ w1, src w1 = .fault f := by
  rw [readFrom_feed hP h.inp hb (n := b.ibuf.length) (by omega)]
  exact feed_outcome hP h hb (by omega)

/-- Only the position in the output buffer differs. -/
theorem relIn_next {p : Proto σ} {b : Buf σ} {l : List Byte} (h : RelIn p b l) (n : Nat) : RelIn p { b with obufNext := n } l :=
  ⟨h.next, h.le, h.bytes, h.load⟩

theorem same_next (b : Buf σ) (n : Nat) : Same b { b with obufNext := n } := ⟨rfl, rfl, rfl, rfl, rfl⟩

theorem get_outcome {p : Proto σ} {b : Buf σ} {m : Machine} (h : Rel p b m) (w : σ) :
    ∃ x b', Buf.get (b, w) = .ret x (b', w) ∧ Same b b' ∧ ∃ m', Rel p b' m' := by
  rcases m with ⟨pending, out⟩
  cases out with
  | nil => exact ⟨0, b, get_empty h.outp w, Same.refl b, _, h⟩
  | cons x out =>
    obtain ⟨b', h1, h2, h3, rfl⟩ := get_cons h.outp w
    exact ⟨x, _, h1, h3, ⟨pending, out⟩, relIn_next h.inp _, h2⟩

theorem writeTo_outcome {p : Proto σ} {b : Buf σ} {m : Machine} (h : Rel p b m) (dest : Byte → Eff σ Unit) (w : σ) :
    match Buf.writeTo dest (b, w) with
    | .ret _ (b', _) => Same b b' ∧ ∃ m', Rel p b' m'
    | .threw (b', _) => Same b b' ∧ ∃ m', Rel p b' m'
    | .fault f => ∃ x w1, dest x w1 = .fault f := by
  rcases writeTo_cases dest (w := w) h.outp with ⟨w', _, h2⟩ | ⟨sent, x, rest, w1, _, _, ⟨w', _, h3, h4⟩ | ⟨f, h3, h4⟩⟩
  · rw [h2]; exact ⟨same_next b _, ⟨m.pending, []⟩, relIn_next h.inp _, unread_drained h.outp⟩
  · rw [h4]; exact ⟨same_next b _, ⟨m.pending, rest⟩, relIn_next h.inp _, h3⟩
  · rw [h4]; exact ⟨x, w1, h3⟩

/-! ## `reply` -/

theorem accepts_prefix {τ : Type} {dest : Byte → Eff τ Unit} : ∀ {sent : List Byte} {x : Byte} {rest : List Byte} {w w1 w' : τ},
    Accepts dest w (sent ++ x :: rest) w' → Accepts dest w sent w1 → ∃ w2, dest x w1 = .ret () w2
  | [], x, rest, w, w1, w', h, h' => by
    cases h' with
    | nil => cases h with | cons h1 _ => exact ⟨_, h1⟩
  | y :: sent, x, rest, w, w1, w', h, h' => by
    cases h with
    | cons h1 h2 =>
      cases h' with
      | cons h3 h4 =>
        rw [h1] at h3
        cases h3
        exact accepts_prefix h2 h4

theorem accepts_det {τ : Type} {dest : Byte → Eff τ Unit} {l : List Byte} {w w1 w2 : τ} (h : Accepts dest w l w1)
    (h' : Accepts dest w l w2) : w1 = w2 := by
  have h1 := putAll_accepts h
  rw [putAll_accepts h'] at h1
  cases h1
  rfl

theorem writeTo_accepts {ω : Type} {dest : Byte → Eff ω Unit} {b : Buf σ} {out : List Byte} (h : Unread b out) {w w' : ω}
    (ha : Accepts dest w out w') : Buf.writeTo dest (b, w) = .ret () ({ b with obufNext := b.obufBottom }, w') := by
  rcases writeTo_cases dest (w := w) h with ⟨w1, h1, h2⟩ | ⟨sent, x, rest, w1, rfl, h1, h2⟩
  · rw [h2, accepts_det ha h1]
  · obtain ⟨w2, h3⟩ := accepts_prefix ha h1
    rcases h2 with ⟨w', h4, _⟩ | ⟨f, h4, _⟩ <;> (rw [h3] at h4; cases h4)

theorem bufIt_accepts : ∀ {out : List Byte} {mem : Mem} {i : Nat}, i + out.length ≤ mem.length →
    Accepts bufIt (mem, i) out (splice mem i out, i + out.length)
  | [], mem, i, _ => by rw [splice_nil]; exact .nil _
  | x :: out, mem, i, h => by
    simp only [List.length_cons] at h
    have h1 : bufIt x (mem, i) = .ret () (mem.set i x, i + 1) := by
      unfold bufIt; simp only; rw [Mem.wr_ok (by omega)]
    have := bufIt_accepts (out := out) (mem := mem.set i x) (i := i + 1) (by simp; omega)
    rw [splice_set_cons (by omega), show i + 1 + out.length = i + (x :: out).length by simp; omega] at this
    exact .cons h1 this

theorem bytes_fit {P : Platform} {s : Mode} {n : Nat} {bs : List Byte} (h : bs.length = n) :
    Val.FitsAll (Safe P s) [.arr (.uint 1) n] [.arr (bs.map fun x => .int x.toNat)] := by
  simp only [Val.FitsAll, Val.Fits, and_true]
  refine ⟨by simpa using h, ?_⟩
  intro v hv
  obtain ⟨x, _, rfl⟩ := List.mem_map.1 hv
  simp only [Val.Fits]
  have := x.isLt
  simp
  omega

theorem replyKey_sig {P : Platform} {k : Key} {n : Nat} (h : ReplyKey P k n) : Ty.WFs k.sig.params ∧ PackedAll k.sig.params := by
  rw [h.params]
  have := h.size
  simp [Ty.WFs, Ty.WF, PackedAll, Packed, wireSize, Ty.sizeof]
  omega

theorem reply_bufSize {P : Platform} {k : Key} {n : Nat} (h : ReplyKey P k n) : k.payloadLength - k.idxBytes = n := by
  rw [Key.payloadLength, Sig.parametersSize, sum11_eq, h.params]
  simp [Ty.sizeof]

theorem message_params {P : Platform} (hP : P.Valid) {k : Key} (hs : Supported P k.e k.s) (hk : 1 ≤ k.idxBytes)
    (hi : k.index < 256 ^ k.idxBytes) (hw : Ty.WFs k.sig.params) (hp : PackedAll k.sig.params) {args : List Val}
    (hf : Val.FitsAll (Safe P k.s) k.sig.params args) :
    k.message P args = .ok (request k.e k.s k.idxBytes k.index k.sig.params args) :=
  message_eq (k := ⟨k.e, k.s, k.idxBytes, k.index, ⟨k.sig.params, none⟩⟩) hP hs hk hi
    ⟨hw, hp, fun t h => by cases h⟩ hf

theorem reply_eq {P : Platform} (hP : P.Valid) {k : Key} {n : Nat} (hk : ReplyKey P k n) (output : Byte → Eff σ Unit)
    {b : Buf σ} {out : List Byte} (h : Unread b out) (w : σ) :
    Buf.reply P k n output (b, w) =
      if b.obufNext = 0 ∧ out.length ≤ n then
        match putAll output (request k.e k.s k.idxBytes k.index k.sig.params
          [.arr ((splice (P.junkBytes n) 0 out).map fun x => .int x.toNat)]) w with
        | .ret _ w => .ret true ({ b with obufNext := b.obufBottom }, w)
        | .threw w => .threw ({ b with obufNext := b.obufBottom }, w)
        | .fault f => .fault f
      else .ret false (b, w) := by
  have hb := h.bottom
  unfold Buf.reply
  simp only [reply_bufSize hk]
  by_cases hc : b.obufNext = 0 ∧ out.length ≤ n
  · rw [if_pos hc, if_neg (by simp; omega)]
    have hlen : 0 + out.length ≤ (P.junkBytes n).length := by rw [junkBytes_length]; omega
    rw [writeTo_accepts h (bufIt_accepts hlen)]
    simp only
    have hl : (splice (P.junkBytes n) 0 out).length = n := by rw [splice_length hlen, junkBytes_length]
    have hs := replyKey_sig hk
    have hm := message_params hP hk.sup hk.pos hk.index hs.1 hs.2
      (args := [.arr ((splice (P.junkBytes n) 0 out).map fun x => .int x.toNat)]) (by rw [hk.params]; exact bytes_fit hl)
    unfold Key.writeTo
    rw [hm, Eff.lift_ok, pure_bind, outAll_eq]
    generalize putAll output _ w = r
    cases r <;> rfl
  · rw [if_neg hc, if_pos (by simp; omega)]

theorem reply_outcome {P : Platform} (hP : P.Valid) {k : Key} {n : Nat} (hk : ReplyKey P k n) (output : Byte → Eff σ Unit)
    {p : Proto σ} {b : Buf σ} {m : Machine} (h : Rel p b m) (w : σ) :
    match Buf.reply P k n output (b, w) with
    | .ret _ (b', _) => Same b b' ∧ ∃ m', Rel p b' m'
    | .threw (b', _) => Same b b' ∧ ∃ m', Rel p b' m'
    | .fault f => ∃ bs, putAll output bs w = .fault f := by
  rw [reply_eq hP hk output h.outp]
  have hd : Same b { b with obufNext := b.obufBottom } ∧ ∃ m', Rel p { b with obufNext := b.obufBottom } m' :=
    ⟨same_next b _, ⟨m.pending, []⟩, relIn_next h.inp _, unread_drained h.outp⟩
  by_cases hc : b.obufNext = 0 ∧ m.out.length ≤ n
  · rw [if_pos hc]
    cases he : putAll output (request k.e k.s k.idxBytes k.index k.sig.params
          [.arr ((splice (P.junkBytes n) 0 m.out).map fun x => .int x.toNat)]) w with
    | ret a w' => exact hd
    | threw w' => exact hd
    | fault f => exact ⟨_, he⟩
  · rw [if_neg hc]
    exact ⟨Same.refl b, m, h⟩

/-! ## All the member functions -/

theorem putAll_fault {τ : Type} {dest : Byte → Eff τ Unit} {f : Fault} : ∀ {bs : List Byte} {w : τ},
    putAll dest bs w = .fault f → ∃ x w1, dest x w1 = .fault f
  | [], w, h => by cases h
  | x :: bs, w, h => by
    cases hx : dest x w with
    | ret a w' =>
      have : putAll dest bs w' = .fault f := by
        rw [← h]; exact (Eff.bind_ret (f := fun _ => putAll dest bs) hx).symm
      exact putAll_fault this
    | threw w' =>
      have h' : putAll dest (x :: bs) w = .threw w' := Eff.bind_threw hx
      rw [h] at h'; cases h'
    | fault f' =>
      have h' : putAll dest (x :: bs) w = .fault f' := Eff.bind_fault hx
      rw [h] at h'; cases h'
      exact ⟨x, w, hx⟩

theorem op_outcome {P : Platform} (hP : P.Valid) {p : Proto σ} {b : Buf σ} {m : Machine} (h : Rel p b m)
    (hb : BufOk P p b) (op : Op σ) (hop : op.Ok P) (w : σ) :
    match op.run P (b, w) with
    | .ret _ (b', _) => Same b b' ∧ ∃ m', Rel p b' m'
    | .threw (b', _) => (op.Input ∧ Throws p) ∨ (Same b b' ∧ ∃ m', Rel p b' m')
    | .fault f => (op.Input ∧ PutFault P p b f) ∨ op.UserFault f := by
  cases op with
  | put x =>
    have := put_outcome hP h hb x w
    show match (Buf.put P x >>= fun _ => pure ()) (b, w) with
      | .ret _ (b', _) => Same b b' ∧ ∃ m', Rel p b' m'
      | .threw (b', _) => (True ∧ Throws p) ∨ (Same b b' ∧ ∃ m', Rel p b' m')
      | .fault f => (True ∧ PutFault P p b f) ∨ False
    revert this
    cases he : Buf.put P x (b, w) with
    | fault f => rw [Eff.bind_fault he]; exact fun h => Or.inl ⟨trivial, h⟩
    | threw t => rw [Eff.bind_threw he]; exact fun h => Or.inl ⟨trivial, h⟩
    | ret st t =>
      rw [Eff.bind_ret he]
      rintro ⟨hs, ⟨rfl, h2, h3, _⟩ | ⟨rfl, h2, h3, _⟩ | ⟨rfl, h2, out, h3⟩⟩
      · obtain ⟨out, ho⟩ := unread_any h.outp hs h3
        exact ⟨hs, ⟨_, out⟩, h2, ho⟩
      · obtain ⟨out, ho⟩ := unread_any h.outp hs h3
        exact ⟨hs, ⟨_, out⟩, h2, ho⟩
      · exact ⟨hs, ⟨_, out⟩, h2, h3⟩
  | get =>
    obtain ⟨x, b', h1, h2, h3⟩ := get_outcome h w
    show match (Buf.get >>= fun _ => pure ()) (b, w) with
      | .ret _ (b', _) => Same b b' ∧ ∃ m', Rel p b' m'
      | .threw (b', _) => _
      | .fault f => _
    rw [Eff.bind_ret h1]
    exact ⟨h2, h3⟩
  | readFrom src =>
    have := readFrom_outcome hP src h hb w
    show match (Buf.readFrom P src >>= fun _ => pure ()) (b, w) with
      | .ret _ (b', _) => Same b b' ∧ ∃ m', Rel p b' m'
      | .threw (b', _) => (True ∧ Throws p) ∨ (Same b b' ∧ ∃ m', Rel p b' m')
      | .fault f => (True ∧ PutFault P p b f) ∨ ∃ w, src w = .fault f
    revert this
    cases he : Buf.readFrom P src (b, w) with
    | fault f =>
      rw [Eff.bind_fault he]
      rintro (h | h)
      · exact Or.inl ⟨trivial, h⟩
      · exact Or.inr h
    | threw t =>
      rw [Eff.bind_threw he]
      rintro (h | ⟨_, h1, _, h2⟩)
      · exact Or.inl ⟨trivial, h⟩
      · exact Or.inr ⟨h1, h2⟩
    | ret st t =>
      rw [Eff.bind_ret he]
      rintro ⟨_, h1, h2, out, h3⟩
      exact ⟨h1, ⟨_, out⟩, h2, h3⟩
  | writeTo dest =>
    have := writeTo_outcome h dest w
    show match Buf.writeTo dest (b, w) with
      | .ret _ (b', _) => Same b b' ∧ ∃ m', Rel p b' m'
      | .threw (b', _) => (False ∧ Throws p) ∨ (Same b b' ∧ ∃ m', Rel p b' m')
      | .fault f => (False ∧ PutFault P p b f) ∨ ∃ x w, dest x w = .fault f
    revert this
    cases Buf.writeTo dest (b, w) with
    | fault f => exact Or.inr
    | threw t => exact Or.inr
    | ret _ t => exact id
  | process src dest =>
    have := readFrom_outcome hP src h hb w
    show match ((Buf.readFrom P src >>= fun status =>
        if status = .resolved then Buf.writeTo dest >>= fun _ => pure status else pure status) >>= fun _ => pure ()) (b, w) with
      | .ret _ (b', _) => Same b b' ∧ ∃ m', Rel p b' m'
      | .threw (b', _) => (True ∧ Throws p) ∨ (Same b b' ∧ ∃ m', Rel p b' m')
      | .fault f => (True ∧ PutFault P p b f) ∨ ((∃ w, src w = .fault f) ∨ ∃ x w, dest x w = .fault f)
    rw [bind_assoc]
    revert this
    cases he : Buf.readFrom P src (b, w) with
    | fault f =>
      rw [Eff.bind_fault he]
      rintro (h | h)
      · exact Or.inl ⟨trivial, h⟩
      · exact Or.inr (Or.inl h)
    | threw t =>
      rw [Eff.bind_threw he]
      rintro (h | ⟨_, h1, _, h2⟩)
      · exact Or.inl ⟨trivial, h⟩
      · exact Or.inr ⟨h1, h2⟩
    | ret st t =>
      obtain ⟨b', w'⟩ := t
      rw [Eff.bind_ret he]
      rintro ⟨_, h1, h2, out, h3⟩
      by_cases hr : st = .resolved
      · have := writeTo_outcome (p := p) (m := ⟨[], out⟩) ⟨h2, h3⟩ dest w'
        simp only [if_pos hr, bind_assoc]
        revert this
        cases hw : Buf.writeTo dest (b', w') with
        | fault f => rw [Eff.bind_fault hw]; exact fun h => Or.inr (Or.inr h)
        | threw t => rw [Eff.bind_threw hw]; exact fun h => Or.inr ⟨h1.trans h.1, h.2⟩
        | ret _ t => rw [Eff.bind_ret hw]; exact fun h => ⟨h1.trans h.1, h.2⟩
      · simp only [if_neg hr]
        exact ⟨h1, ⟨_, out⟩, h2, h3⟩
  | reply k n output =>
    have := reply_outcome hP hop output h w
    show match (Buf.reply P k n output >>= fun _ => pure ()) (b, w) with
      | .ret _ (b', _) => Same b b' ∧ ∃ m', Rel p b' m'
      | .threw (b', _) => (False ∧ Throws p) ∨ (Same b b' ∧ ∃ m', Rel p b' m')
      | .fault f => (False ∧ PutFault P p b f) ∨ ∃ x w, output x w = .fault f
    revert this
    cases he : Buf.reply P k n output (b, w) with
    | fault f => rw [Eff.bind_fault he]; rintro ⟨bs, h⟩; exact Or.inr (putAll_fault h)
    | threw t => rw [Eff.bind_threw he]; exact Or.inr
    | ret _ t => rw [Eff.bind_ret he]; exact id

theorem neverThrow_throws {K : Keyring} {defs : Nat → List Val → Eff σ (Option Val)} (h : NeverThrow K defs) :
    ¬ Throws (protoOf K defs) := by
  rintro ⟨cb, hcb, args, w, w', hc⟩
  obtain ⟨d, hd, rfl⟩ := protoOf_mem hcb
  exact h d hd args w w' hc

/-- Invariant of the histories. -/
theorem reach_inv {P : Platform} {K : Keyring} {f : Features} {defs : Nat → List Val → Eff σ (Option Val)}
    (h : Setting P K f defs) {sizeMax : Nat} {shared : Bool} {w0 : σ} {st : BState σ}
    (hr : Reach P K defs (fresh P K f defs sizeMax shared, w0) st) :
    Same (fresh P K f defs sizeMax shared) st.1 ∧ BufOk P (protoOf K defs) st.1 ∧ ∃ m, Rel (protoOf K defs) st.1 m := by
  suffices hm : Same (fresh P K f defs sizeMax shared) st.1 ∧ ∃ m, Rel (protoOf K defs) st.1 m from
    ⟨hm.1, (fresh_ok h sizeMax shared).same hm.1, hm.2⟩
  induction hr with
  | start => exact ⟨Same.refl _, _, fresh_rel h sizeMax shared⟩
  | world w' _ ih => exact ih
  | @ret st st' op _ hop he ih =>
    obtain ⟨hs, m, hm⟩ := ih
    have := op_outcome h.valid hm ((fresh_ok h sizeMax shared).same hs) op hop st.2
    rw [show (st.1, st.2) = st from rfl, he] at this
    exact ⟨hs.trans this.1, this.2⟩
  | @threw st st' op _ hop hn he ih =>
    obtain ⟨hs, m, hm⟩ := ih
    have := op_outcome h.valid hm ((fresh_ok h sizeMax shared).same hs) op hop st.2
    rw [show (st.1, st.2) = st from rfl, he] at this
    rcases this with ⟨h1, h2⟩ | h1
    · exact absurd h2 (neverThrow_throws (hn h1))
    · exact ⟨hs.trans h1.1, h1.2⟩

end Upd
