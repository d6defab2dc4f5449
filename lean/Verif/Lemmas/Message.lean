import Verif.Spec.Message
import Verif.Lemmas.Bindings
import Verif.Lemmas.Streams
import Verif.Lemmas.Deferred
import Verif.Props.Key

/-! Helper lemmas: messages kept by the program. -/

namespace Upd
open Spec TypeList

variable {σ α : Type} {P : Platform}

/-- The bytes of a tuple determined by their cells. -/
theorem bytesHold_eq {e : Endian} {s : Mode} {ts : List Ty} (hp : PackedAll ts) {mem : Mem} {vs : List Val} (hl : mem.length = wireSizes ts)
    (h : BytesHold P e s ts (some mem) (some vs)) : mem = wires e s ts vs := by
  obtain ⟨_, hf, hm⟩ := h
  rw [packedAll_cells e s _ ts vs hp hf] at hm
  have hwl := wires_length (e := e) (s := s) hp hf
  apply List.ext_getElem?
  intro i
  by_cases hi : i < (wires e s ts vs).length
  · have := hm i (wires e s ts vs)[i] (by rw [List.getElem?_map, List.getElem?_eq_getElem hi]; rfl)
    rw [Nat.zero_add] at this
    rw [this, List.getElem?_eq_getElem hi]
  · rw [List.getElem?_eq_none (by omega), List.getElem?_eq_none (by omega)]

theorem bytesHold_wires {e : Endian} {s : Mode} {ts : List Ty} (hp : PackedAll ts) {vs : List Val} (hf : Val.FitsAll (Safe P s) ts vs) :
    BytesHold P e s ts (some (wires e s ts vs)) (some vs) := by
  have hwl := wires_length (e := e) (s := s) hp hf
  refine ⟨by rw [packedAll_serSizes ts hp, hwl]; exact Nat.le_refl _, hf, ?_⟩
  rw [packedAll_cells e s _ ts vs hp hf]
  exact slice_matches (slice_all rfl)

/-- `set` on the encodings of values. -/
theorem set_wires (hP : P.Valid) {e : Endian} {s : Mode} (hs : Supported P e s) {ts : List Ty} (hw : Ty.WFs ts) (hp : PackedAll ts) {vs : List Val}
    (hf : Val.FitsAll (Safe P s) ts vs) {k : Nat} (hk : k < ts.length) {v : Val} (hv : v.Fits (Safe P s) ts[k]) :
    (Tuple.self e s ts).set P k v (wires e s ts vs) = .ok (wires e s ts (vs.set k v)) := by
  have hh := bytesHold_wires (P := P) (e := e) hp hf
  obtain ⟨mem', h1, h2⟩ := hold_set hP hs hw (packedAll_loose ts hp) hh.1 hf hh.2.2 hk hv
  have hl := (C18_set_frame_bytes (V := Tuple.self e s ts) (packedAll_loose ts hp) hk h1).1
  rw [h1, bytesHold_eq hp (hl.trans (wires_length hp hf)) h2]

/-- `get` on the encodings of values. -/
theorem get_wires (hP : P.Valid) {e : Endian} {s : Mode} (hs : Supported P e s) {ts : List Ty} (hw : Ty.WFs ts) (hp : PackedAll ts) {vs : List Val}
    (hf : Val.FitsAll (Safe P s) ts vs) {k : Nat} {v : Val} (hv : vs[k]? = some v) : (Tuple.self e s ts).get P k (wires e s ts vs) = .ok v := by
  have hh := bytesHold_wires (P := P) (e := e) hp hf
  rw [hold_get hP hs hw (packedAll_loose ts hp) hf hh.2.2 k, hv]

/-- Sending a message whose bytes do not change before they are sent. -/
theorem sendLive_eq {m : Nat} {dest : Byte → Eff (Desk σ) Unit} {bytes : Mem}
    (hkeep : ∀ k b d d', bytes[k]? = some b → dest b d = .ret () d' → (d'.1[m]?).map (·.drop (k + 1)) = (d.1[m]?).map (·.drop (k + 1))) :
    ∀ (n k : Nat) (d : Desk σ), k + n = bytes.length → (d.1[m]?).map (·.drop k) = some (bytes.drop k) → sendLive m dest n k d = putAll dest (bytes.drop k) d
  | 0, k, d, hn, _ => by
    rw [List.drop_eq_nil_of_le (by omega)]
    rfl
  | n + 1, k, d, hn, hd => by
    have hk : k < bytes.length := by omega
    cases hm : d.1[m]? with
    | none => rw [hm] at hd; simp at hd
    | some bs =>
      rw [hm] at hd
      simp only [Option.map_some, Option.some.injEq] at hd
      have hb : bs[k]? = some bytes[k] := by
        have h1 : (bs.drop k)[0]? = (bytes.drop k)[0]? := by rw [hd]
        simpa [List.getElem?_drop, List.getElem?_eq_getElem hk] using h1
      have hc : Desk.content m d = .ret bs d := by simp only [Desk.content, hm]
      rw [List.drop_eq_getElem_cons hk]
      show (Desk.content m >>= fun bs => match bs[k]? with | none => Eff.lift (.error .oobRead) | some b => dest b >>= fun _ => sendLive m dest n (k + 1)) d =
        (dest bytes[k] >>= fun _ => putAll dest (bytes.drop (k + 1))) d
      rw [Eff.bind_ret hc, hb]
      show (dest bytes[k] >>= fun _ => sendLive m dest n (k + 1)) d = _
      cases hx : dest bytes[k] d with
      | fault f => rw [Eff.bind_fault hx, Eff.bind_fault hx]
      | threw d' => rw [Eff.bind_threw hx, Eff.bind_threw hx]
      | ret u d' =>
        rw [Eff.bind_ret hx, Eff.bind_ret hx]
        refine sendLive_eq hkeep n (k + 1) d' (by omega) ?_
        rw [hkeep k _ d d' (List.getElem?_eq_getElem hk) hx, hm, Option.map_some, ← List.drop_drop, hd, List.drop_drop]

/-- A message and what it stands for. -/
structure Written (P : Platform) (c : MsgClass) (l : Letter) (bs : Mem) : Prop where
  cls : l.c = c
  ok : MsgClass.Ok P c
  fits : Val.FitsAll (Safe P c.s) c.types (.int l.index :: l.args)
  bytes : bs = wires c.e c.s c.types (.int l.index :: l.args)

theorem Written.request {c : MsgClass} {l : Letter} {bs : Mem} (h : Written P c l bs) : bs = l.request := by
  rw [h.bytes, MsgClass.types, Letter.request, Spec.request, h.cls]
  simp [wires, wire]

theorem Written.wf {c : MsgClass} {l : Letter} {bs : Mem} (h : Written P c l bs) : Ty.WFs c.types ∧ PackedAll c.types := by
  obtain ⟨_, h1, h2, h3⟩ := h.ok
  exact ⟨⟨h1, h2⟩, ⟨trivial, h3⟩⟩

/-- The messages of the program and the letters of its meaning. -/
structure Kept (P : Platform) (Γ : List MsgClass) (ls : List Letter) (ms : List Mem) : Prop where
  letters : ls.length = Γ.length
  messages : ms.length = Γ.length
  at' : ∀ (m : Nat) (c : MsgClass), Γ[m]? = some c → ∃ l bs, ls[m]? = some l ∧ ms[m]? = some bs ∧ Written P c l bs

theorem Kept.add {Γ : List MsgClass} {ls : List Letter} {ms : List Mem} (h : Kept P Γ ls ms) {c : MsgClass} {l : Letter} {bs : Mem} (hw : Written P c l bs) :
    Kept P (Γ ++ [c]) (ls ++ [l]) (ms ++ [bs]) where
  letters := by simp [h.letters]
  messages := by simp [h.messages]
  at' := by
    intro m c' hc
    have h1 := h.letters
    have h2 := h.messages
    by_cases hm : m < Γ.length
    · rw [List.getElem?_append_left hm] at hc
      obtain ⟨l', bs', h3, h4, h5⟩ := h.at' m c' hc
      exact ⟨l', bs', by rw [List.getElem?_append_left (by omega)]; exact h3, by rw [List.getElem?_append_left (by omega)]; exact h4, h5⟩
    · have hm' : m = Γ.length := by
        have := (List.getElem?_eq_some_iff.mp hc).1
        simp at this
        omega
      subst hm'
      simp only [List.getElem?_concat_length, Option.some.injEq] at hc
      subst hc
      exact ⟨l, bs, by rw [← h1]; simp, by rw [← h2]; simp, hw⟩

theorem Kept.put {Γ : List MsgClass} {ls : List Letter} {ms : List Mem} (h : Kept P Γ ls ms) {m : Nat} {c : MsgClass} (hc : Γ[m]? = some c) {l : Letter} {bs : Mem}
    (hw : Written P c l bs) : Kept P Γ (ls.set m l) (ms.set m bs) where
  letters := by simp [h.letters]
  messages := by simp [h.messages]
  at' := by
    intro n c' hc'
    have h1 := h.letters
    have h2 := h.messages
    by_cases hn : m = n
    · subst hn
      have hm := (List.getElem?_eq_some_iff.mp hc).1
      rw [hc] at hc'
      injection hc' with hc'
      subst hc'
      exact ⟨l, bs, by simp [List.getElem?_set, h1, hm], by simp [List.getElem?_set, h2, hm], hw⟩
    · obtain ⟨l', bs', h3, h4, h5⟩ := h.at' n c' hc'
      exact ⟨l', bs', by rw [List.getElem?_set_ne hn]; exact h3, by rw [List.getElem?_set_ne hn]; exact h4, h5⟩

/-- A program and its meaning. -/
def SameMail {α : Type} (x : Res (List Letter × σ) α) (y : Res (Desk σ) α) : Prop :=
  match x with
  | .ret a d => ∃ ms, y = .ret a (ms, d.2)
  | .threw d => ∃ ms, y = .threw (ms, d.2)
  | .fault f => y = .fault f

theorem mail_run (hP : P.Valid) : ∀ (prog : Mail σ α) (Γ : List MsgClass), MailOk P Γ prog → ∀ (ls : List Letter) (ms : List Mem) (w : σ), Kept P Γ ls ms →
    SameMail (meaning prog (ls, w)) (prog.run P Γ (ms, w))
  | .done a, Γ, _, ls, ms, w, h => ⟨ms, rfl⟩
  | .look next, Γ, hok, ls, ms, w, h => mail_run hP (next w) Γ (hok w) ls ms w h
  | .act x next, Γ, hok, ls, ms, w, h => by
    show SameMail ((Eff.zoom lettersRest x >>= fun _ => meaning next) (ls, w)) ((Eff.zoom Desk.rest x >>= fun _ => next.run P Γ) (ms, w))
    cases hx : x w with
    | fault f => rw [Eff.bind_fault (zoom_fault (L := lettersRest) hx), Eff.bind_fault (zoom_fault (L := Desk.rest) hx)]; rfl
    | threw w' => rw [Eff.bind_threw (zoom_threw (L := lettersRest) hx), Eff.bind_threw (zoom_threw (L := Desk.rest) hx)]; exact ⟨ms, rfl⟩
    | ret u w' =>
      rw [Eff.bind_ret (zoom_ret (L := lettersRest) hx), Eff.bind_ret (zoom_ret (L := Desk.rest) hx)]
      exact mail_run hP next Γ hok ls ms w' h
  | .make k args next, Γ, hok, ls, ms, w, h => by
    obtain ⟨hs, hk, hi, hg, hf, hn⟩ := hok
    have hw : Written P k.msgClass ⟨k.msgClass, k.index, args⟩ (wires k.e k.s (.uint k.idxBytes :: k.sig.params) (.int k.index :: args)) :=
      ⟨rfl, ⟨hs, hk, hg.1, hg.2.1⟩, ⟨⟨Int.natCast_nonneg _, by have := Int.ofNat_lt.mpr hi; simpa [Key.msgClass] using this⟩, hf⟩, rfl⟩
    have hmsg := message_eq hP hs hk hi hg hf
    rw [show request k.e k.s k.idxBytes k.index k.sig.params args = wires k.e k.s (.uint k.idxBytes :: k.sig.params) (.int k.index :: args) from hw.request.symm] at hmsg
    show SameMail (meaning next (ls ++ [⟨k.msgClass, k.index, args⟩], w)) ((Eff.lift (k.message P args) >>= fun bs => Desk.declare bs >>= fun _ => next.run P (Γ ++ [k.msgClass])) (ms, w))
    rw [hmsg, Eff.lift_ok, pure_bind]
    exact mail_run hP next _ hn _ _ w (h.add hw)
  | .take m' next, Γ, hok, ls, ms, w, h => by
    obtain ⟨c, hc, hn⟩ := hok
    obtain ⟨l, bs, h1, h2, h3⟩ := h.at' m' c hc
    have e1 : meaning (.take m' next) (ls, w) = meaning next (ls ++ [l], w) := by
      show (letterAt m' >>= fun l d => meaning next (d.1 ++ [l], d.2)) (ls, w) = _
      exact (Eff.bind_ret (show letterAt m' (ls, w) = .ret l (ls, w) by simp only [letterAt, h1])).trans rfl
    have e2 : (Mail.take m' next).run P Γ (ms, w) = next.run P (Γ ++ [c]) (ms ++ [bs], w) := by
      rw [Mail.run, hc]
      show (Desk.content m' >>= fun bs => Desk.declare bs >>= fun _ => next.run P (Γ ++ [c])) (ms, w) = _
      rw [Eff.bind_ret (show Desk.content m' (ms, w) = .ret bs (ms, w) by simp only [Desk.content, h2])]
      rfl
    rw [e1, e2]
    exact mail_run hP next _ hn _ _ w (h.add h3)
  | .move m m' next, Γ, hok, ls, ms, w, h => by
    obtain ⟨⟨c, hc, hc'⟩, hn⟩ := hok
    obtain ⟨l, bs, h1, h2, h3⟩ := h.at' m' c hc'
    have e1 : meaning (.move m m' next) (ls, w) = meaning next (ls.set m l, w) := by
      show (letterAt m' >>= fun l d => meaning next (d.1.set m l, d.2)) (ls, w) = _
      exact (Eff.bind_ret (show letterAt m' (ls, w) = .ret l (ls, w) by simp only [letterAt, h1])).trans rfl
    have e2 : (Mail.move m m' next).run P Γ (ms, w) = next.run P Γ (ms.set m bs, w) := by
      rw [Mail.run]
      show (Desk.content m' >>= fun bs => Desk.replace m bs >>= fun _ => next.run P Γ) (ms, w) = _
      rw [Eff.bind_ret (show Desk.content m' (ms, w) = .ret bs (ms, w) by simp only [Desk.content, h2])]
      rfl
    rw [e1, e2]
    exact mail_run hP next _ hn _ _ w (h.put hc h3)
  | .edit m j v next, Γ, hok, ls, ms, w, h => by
    obtain ⟨⟨c, t, hc, ht, hv⟩, hn⟩ := hok
    obtain ⟨l, bs, h1, h2, h3⟩ := h.at' m c hc
    obtain ⟨hj, rfl⟩ := List.getElem?_eq_some_iff.mp ht
    have hset := set_wires hP h3.ok.1 h3.wf.1 h3.wf.2 h3.fits hj hv
    rw [← h3.bytes] at hset
    have hvals : Val.int (l.edit j v).index :: (l.edit j v).args = (Val.int l.index :: l.args).set j v ∧ (l.edit j v).c = l.c := by
      cases j with
      | succ j => exact ⟨rfl, rfl⟩
      | zero =>
        have hv' : v.Fits (Safe P c.s) (.uint c.idxBytes) := hv
        cases v with
        | int z =>
          simp only [Val.Fits] at hv'
          simp only [Letter.edit, List.set_cons_zero, Int.toNat_of_nonneg hv'.1, and_self]
        | bool _ | arr _ | user _ => simp [Val.Fits] at hv'
    have hw : Written P c (l.edit j v) (wires c.e c.s c.types ((Val.int l.index :: l.args).set j v)) := by
      refine ⟨hvals.2.trans h3.cls, h3.ok, ?_, by rw [hvals.1]⟩
      rw [hvals.1]
      exact fitsAll_set h3.fits hj hv
    have e1 : meaning (.edit m j v next) (ls, w) = meaning next (ls.set m (l.edit j v), w) := by
      show (letterAt m >>= fun l d => meaning next (d.1.set m (l.edit j v), d.2)) (ls, w) = _
      exact (Eff.bind_ret (show letterAt m (ls, w) = .ret l (ls, w) by simp only [letterAt, h1])).trans rfl
    have e2 : (Mail.edit m j v next).run P Γ (ms, w) = next.run P Γ (ms.set m (wires c.e c.s c.types ((Val.int l.index :: l.args).set j v)), w) := by
      rw [Mail.run, hc]
      show (Desk.content m >>= fun bs => Eff.lift ((Tuple.self c.e c.s c.types).set P j v bs) >>= fun bs' => Desk.replace m bs' >>= fun _ => next.run P Γ) (ms, w) = _
      rw [Eff.bind_ret (show Desk.content m (ms, w) = .ret bs (ms, w) by simp only [Desk.content, h2]), hset, Eff.lift_ok, pure_bind]
      rfl
    rw [e1, e2]
    exact mail_run hP next _ hn _ _ w (h.put hc hw)
  | .peek m j next, Γ, hok, ls, ms, w, h => by
    obtain ⟨⟨c, hc, hj⟩, hn⟩ := hok
    obtain ⟨l, bs, h1, h2, h3⟩ := h.at' m c hc
    have hlen := fitsAll_length h3.fits
    have hget : (Val.int l.index :: l.args)[j]? = some (l.peek j) := by
      cases j with
      | zero => rfl
      | succ j =>
        have hj' : j < l.args.length := by
          simp only [List.length_cons, MsgClass.types] at hlen hj
          omega
        simp [Letter.peek, List.getElem?_eq_getElem hj']
    have hg := get_wires hP h3.ok.1 h3.wf.1 h3.wf.2 h3.fits hget
    rw [← h3.bytes] at hg
    have e1 : meaning (.peek m j next) (ls, w) = meaning (next (l.peek j)) (ls, w) := by
      show (letterAt m >>= fun l => meaning (next (l.peek j))) (ls, w) = _
      exact (Eff.bind_ret (show letterAt m (ls, w) = .ret l (ls, w) by simp only [letterAt, h1])).trans rfl
    have e2 : (Mail.peek m j next).run P Γ (ms, w) = (next (l.peek j)).run P Γ (ms, w) := by
      rw [Mail.run, hc]
      show (Desk.content m >>= fun bs => Eff.lift ((Tuple.self c.e c.s c.types).get P j bs) >>= fun v => (next v).run P Γ) (ms, w) = _
      rw [Eff.bind_ret (show Desk.content m (ms, w) = .ret bs (ms, w) by simp only [Desk.content, h2]), hg, Eff.lift_ok, pure_bind]
    rw [e1, e2]
    exact mail_run hP (next (l.peek j)) _ (hn _) _ _ w h
  | .send m dest next, Γ, hok, ls, ms, w, h => by
    obtain ⟨⟨c, hc⟩, hn⟩ := hok
    obtain ⟨l, bs, h1, h2, h3⟩ := h.at' m c hc
    have e1 : meaning (.send m dest next) (ls, w) = (Eff.zoom lettersRest (putAll dest l.request) >>= fun _ => meaning next) (ls, w) := by
      show (letterAt m >>= fun l => Eff.zoom lettersRest (putAll dest l.request) >>= fun _ => meaning next) (ls, w) = _
      exact (Eff.bind_ret (show letterAt m (ls, w) = .ret l (ls, w) by simp only [letterAt, h1])).trans rfl
    have hsend : writeMessage m (fun b => Eff.zoom Desk.rest (dest b)) (ms, w) = Eff.zoom Desk.rest (putAll dest l.request) (ms, w) := by
      unfold writeMessage
      rw [Eff.bind_ret (show Desk.content m (ms, w) = .ret bs (ms, w) by simp only [Desk.content, h2]), ← h3.request,
        sendLive_eq (bytes := bs) (m := m) ?_ bs.length 0 (ms, w) (by omega) (by simp [h2]), List.drop_zero,
        putAll_zoom (L := Desk.rest) (fun _ _ => rfl) (fun _ _ _ => rfl) (fun _ => rfl)]
      intro k b d d' _ hd
      have : d'.1 = d.1 := by
        unfold Eff.zoom at hd
        split at hd
        · injection hd with _ hd; rw [← hd]; rfl
        · cases hd
        · cases hd
      rw [this]
    have e2 : (Mail.send m dest next).run P Γ (ms, w) = (Eff.zoom Desk.rest (putAll dest l.request) >>= fun _ => next.run P Γ) (ms, w) := by
      show (writeMessage m (fun b => Eff.zoom Desk.rest (dest b)) >>= fun _ => next.run P Γ) (ms, w) = _
      show Eff.bind _ _ _ = Eff.bind _ _ _
      unfold Eff.bind
      rw [hsend]
    rw [e1, e2]
    cases hx : putAll dest l.request w with
    | fault f => rw [Eff.bind_fault (zoom_fault (L := lettersRest) hx), Eff.bind_fault (zoom_fault (L := Desk.rest) hx)]; rfl
    | threw w' => rw [Eff.bind_threw (zoom_threw (L := lettersRest) hx), Eff.bind_threw (zoom_threw (L := Desk.rest) hx)]; exact ⟨ms, rfl⟩
    | ret u w' =>
      rw [Eff.bind_ret (zoom_ret (L := lettersRest) hx), Eff.bind_ret (zoom_ret (L := Desk.rest) hx)]
      exact mail_run hP next Γ hn ls ms w' h

end Upd
