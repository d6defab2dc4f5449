import Verif.Lemmas.Line
import Verif.Props.Session

/-!
# Lines which alter bytes

C107: a program whose calls go through a line which alters bytes (but keeps the number of them, and does not turn a request into one of another size) behaves as the program whose calls are made
without library, on what the bytes which arrive stand for. `P` is the platform of the caller and `Q` the one of the callee.
-/

namespace Upd
open Spec TypeList

variable {σ α : Type} {P Q : Platform} {K : Keyring} {f : Features} {defs : Nat → List Val → Eff σ (Option Val)} {shared : Bool}

/-- C107, buffered dispatcher. Nothing is ever read out of bounds, no undefined behaviour occurs which is not one of the functions or of the line, no byte is left in transit, and the dispatcher is ready
for the next request. -/
theorem C107_distorted (hP : P.Valid) (hs : Supported P K.e K.s) (hQ : Setting Q K f defs) (ho : ResponsesFit K shared) (hdQ : AllDecodeSafe Q K)
    (hdP : ResultsDecodeSafe P K) {line : Line σ} (hF : Spec.Line.Frames P K line) (prog : Talk σ α) (hok : TalkOk P K prog) {b : Buf (Link σ)} {w : σ}
    (hr : Reachable Q K f (hosted defs) shared (b, ⟨[], [], w⟩)) (hp : Pending b []) :
    match distorted line K defs prog w with
    | .ret a w' => ∃ b', prog.remote P K Link.beside (serveBuffered Q) line (b, ⟨[], [], w⟩) = .ret a (b', ⟨[], [], w'⟩) ∧
        Reachable Q K f (hosted defs) shared (b', ⟨[], [], w'⟩) ∧ Pending b' []
    | .threw w' => ∃ b' l, prog.remote P K Link.beside (serveBuffered Q) line (b, ⟨[], [], w⟩) = .threw (b', l) ∧ l.world = w'
    | .fault f => prog.remote P K Link.beside (serveBuffered Q) line (b, ⟨[], [], w⟩) = .fault f := by
  have h := distorted_server hP hQ.valid hQ.ring hs hQ.sup hQ.typed hdQ hdP hF (buffered_any hQ ho hdQ) prog w (b, ⟨[], [], w⟩) hok ⟨hr, hp⟩ rfl
  cases hd : distorted line K defs prog w with
  | fault e => rw [hd] at h; exact h
  | threw w' =>
    rw [hd] at h
    obtain ⟨⟨b', l⟩, h1, h2⟩ := h
    exact ⟨b', l, h1, h2⟩
  | ret a w' =>
    rw [hd] at h
    obtain ⟨⟨b', l⟩, h1, h2, h3⟩ := h
    have h3 : l = _ := h3
    subst h3
    exact ⟨b', h1, h2⟩

/-- C107, unbuffered dispatcher. -/
theorem C107_distorted_unbuffered (hP : P.Valid) (hQ : Q.Valid) (hK : KeyringOk K) (hsP : Supported P K.e K.s) (hsQ : Supported Q K.e K.s)
    (ht : ∀ d ∈ K.decls, WellTyped Q K.s ⟨d.sig, defs d.name⟩) (hdQ : AllDecodeSafe Q K) (hdP : ResultsDecodeSafe P K) {line : Line σ}
    (hF : Spec.Line.Frames P K line) (prog : Talk σ α) (hok : TalkOk P K prog) (f : Features) (w : σ) :
    match distorted line K defs prog w with
    | .ret a w' => prog.remote P K (Lens.whole _) (serveUnbuffered Q (Dispatcher.make K f (hosted defs))) line ⟨[], [], w⟩ = .ret a ⟨[], [], w'⟩
    | .threw w' => ∃ l, prog.remote P K (Lens.whole _) (serveUnbuffered Q (Dispatcher.make K f (hosted defs))) line ⟨[], [], w⟩ = .threw l ∧ l.world = w'
    | .fault f' => prog.remote P K (Lens.whole _) (serveUnbuffered Q (Dispatcher.make K f (hosted defs))) line ⟨[], [], w⟩ = .fault f' := by
  have h := distorted_server hP hQ hK hsP hsQ ht hdQ hdP hF (unbuffered_any (f := f) hQ hK hsQ ht hdQ) prog w ⟨[], [], w⟩ hok trivial rfl
  cases hd : distorted line K defs prog w with
  | fault e => rw [hd] at h; exact h
  | threw w' => rw [hd] at h; exact h
  | ret a w' =>
    rw [hd] at h
    obtain ⟨l, h1, _, h3⟩ := h
    have h3 : l = _ := h3
    subst h3
    exact h1

/-- C107. If the bytes which arrive are the ones of a request, the call is the one of this request, whatever has been sent. -/
theorem C107_arrives (hK : KeyringOk K) {i j : Nat} {sent d : Decl} (hi : K.decls[i]? = some sent) (hd : K.decls[j]? = some d) {line : Line σ} {args args' : List Val}
    (hf : Val.FitsAll (Safe P K.s) d.sig.params args') {w w1 : σ}
    (hup : line.up (request K.e K.s K.idxBytes i sent.sig.params args) w = .ret (request K.e K.s K.idxBytes j d.sig.params args') w1) :
    distortedCall line K defs i args w = (do
      let r ← defs d.name args'
      let bs ← line.down (response K.e K.s d.sig.ret r)
      pure (sent.sig.ret.map fun t => unwire K.e K.s t bs)) w1 := by
  obtain ⟨hj, rfl⟩ := List.getElem?_eq_some_iff.mp hd
  have hmem := List.getElem_mem hj
  have hib : j < 256 ^ K.idxBytes := Nat.lt_trans hj (idxBytes_pos hK.1).2
  have hrep := fitsAll_mono (fun _ _ h => safe_representable h) _ _ hf
  have htk : (request K.e K.s K.idxBytes j K.decls[j].sig.params args').take K.idxBytes = wireBytes K.e K.idxBytes j := by
    rw [request, List.take_append_of_le_length (by rw [wireBytes_length]; exact Nat.le_refl _), List.take_of_length_le (by rw [wireBytes_length]; exact Nat.le_refl _)]
  have hdr : (request K.e K.s K.idxBytes j K.decls[j].sig.params args').drop K.idxBytes = wires K.e K.s K.decls[j].sig.params args' := by
    rw [request, List.drop_append, wireBytes_length, Nat.sub_self, List.drop_of_length_le (by rw [wireBytes_length]; exact Nat.le_refl _)]
    rfl
  unfold distortedCall
  rw [hi]
  simp only
  rw [Eff.bind_ret hup, htk, wireValue_wireBytes hib, hd]
  simp only
  rw [hdr, unwires_wires' (hK.2 _ hmem).1 (hK.2 _ hmem).2.1 hrep]

/-- C107. A call whose request and response are not altered is a direct call. -/
theorem C107_unaltered (hK : KeyringOk K) {i : Nat} {d : Decl} (hd : K.decls[i]? = some d) (ht : WellTyped P K.s ⟨d.sig, defs d.name⟩) {line : Line σ}
    {args : List Val} (hf : Val.FitsAll (Safe P K.s) d.sig.params args) {w w1 w2 w3 : σ} {r : Option Val}
    (hup : line.up (request K.e K.s K.idxBytes i d.sig.params args) w = .ret (request K.e K.s K.idxBytes i d.sig.params args) w1)
    (hc : defs d.name args w1 = .ret r w2) (hdown : line.down (response K.e K.s d.sig.ret r) w2 = .ret (response K.e K.s d.sig.ret r) w3) :
    distortedCall line K defs i args w = .ret r w3 := by
  rw [C107_arrives hK hd hd hf hup]
  obtain ⟨hi, rfl⟩ := List.getElem?_eq_some_iff.mp hd
  have hmem := List.getElem_mem hi
  rw [Eff.bind_ret hc, Eff.bind_ret hdown]
  have hret := ht _ _ _ _ hf hc
  show Res.ret _ _ = _
  congr 1
  cases hr : K.decls[i].sig.ret with
  | none => simp only [hr] at hret; cases r <;> simp_all [RetOk]
  | some t =>
    simp only [hr] at hret
    cases r with
    | none => simp [RetOk] at hret
    | some v =>
      have hg := (hK.2 _ hmem).2.2 t hr
      have h := unwires_wires' (e := K.e) (s := K.s) (ts := [t]) (vs := [v]) (by simpa [Ty.WFs] using hg.1) (by simpa [PackedAll] using hg.2)
        (by simpa [Val.FitsAll] using fits_mono (fun _ _ h => safe_representable h) _ _ hret)
      have hl : (wire K.e K.s t v).length ≤ wireSize t := Nat.le_of_eq (wire_length hg.2 hret)
      simp only [wires, List.append_nil, unwires, List.take_of_length_le hl, List.cons.injEq, and_true] at h
      simp only [response, Option.map_some, h]

/-- C107. Through a line which alters nothing, the program behaves as with direct calls. -/
theorem C107_perfect (hK : KeyringOk K) (ht : ∀ d ∈ K.decls, WellTyped P K.s ⟨d.sig, defs d.name⟩) {line : Line σ} (hup : ∀ bs, line.up bs = pure bs)
    (hdown : ∀ bs, line.down bs = pure bs) : ∀ (prog : Talk σ α), TalkOk P K prog → ∀ w, distorted line K defs prog w = direct K defs prog w
  | .done _, _, _ => rfl
  | .look k, hok, w => C107_perfect hK ht hup hdown (k w) (hok w) w
  | .act x k, hok, w => by
    show (x >>= fun _ => distorted line K defs k) w = (x >>= fun _ => direct K defs k) w
    rw [show distorted line K defs k = direct K defs k from funext (C107_perfect hK ht hup hdown k hok)]
  | .call i args k, hok, w => by
    obtain ⟨⟨d, hd, hf⟩, hk⟩ := hok
    have hkk : (fun r => distorted line K defs (k r)) = fun r => direct K defs (k r) :=
      funext fun r => funext (C107_perfect hK ht hup hdown (k r) (hk r))
    show (distortedCall line K defs i args >>= fun r => distorted line K defs (k r)) w = _
    have hdir : direct K defs (.call i args k) = (defs d.name args >>= fun r => direct K defs (k r)) := by rw [direct, hd]
    rw [hkk, hdir]
    have hcall : distortedCall line K defs i args w = defs d.name args w := by
      cases hc : defs d.name args w with
      | ret r w' => exact C107_unaltered hK hd (ht _ (List.mem_of_getElem? hd)) hf (by rw [hup]; rfl) hc (by rw [hdown]; rfl)
      | threw w' => rw [C107_arrives hK hd hd hf (w1 := w) (by rw [hup]; rfl)]; exact Eff.bind_threw hc
      | fault e => rw [C107_arrives hK hd hd hf (w1 := w) (by rw [hup]; rfl)]; exact Eff.bind_fault hc
    cases hc : defs d.name args w with
    | ret r w' => rw [hc] at hcall; rw [Eff.bind_ret hc, Eff.bind_ret hcall]
    | threw w' => rw [hc] at hcall; rw [Eff.bind_threw hc, Eff.bind_threw hcall]
    | fault e => rw [hc] at hcall; rw [Eff.bind_fault hc, Eff.bind_fault hcall]

/-- C107. Bytes altered within one argument alter this argument only: the function is the right one, and the other arguments are the ones which were sent. -/
theorem C107_one_argument (hK : KeyringOk K) {i : Nat} {d : Decl} (hd : K.decls[i]? = some d) {line : Line σ} {before after : List Ty} {t : Ty}
    (hp : d.sig.params = before ++ t :: after) {xs ys : List Val} {x : Val} (hxs : Val.FitsAll (Safe P K.s) before xs) (hx : x.Fits (Safe P K.s) t)
    (hys : Val.FitsAll (Safe P K.s) after ys) {got : List Byte} (hgot : got.length = wireSize t) {w w1 : σ}
    (hup : line.up (request K.e K.s K.idxBytes i d.sig.params (xs ++ x :: ys)) w =
      .ret (wireBytes K.e K.idxBytes i ++ wires K.e K.s before xs ++ got ++ wires K.e K.s after ys) w1) :
    distortedCall line K defs i (xs ++ x :: ys) w = (do
      let r ← defs d.name (xs ++ unwire K.e K.s t got :: ys)
      let bs ← line.down (response K.e K.s d.sig.ret r)
      pure (d.sig.ret.map fun t => unwire K.e K.s t bs)) w1 := by
  obtain ⟨hj, rfl⟩ := List.getElem?_eq_some_iff.mp hd
  have hmem := List.getElem_mem hj
  have hib : i < 256 ^ K.idxBytes := Nat.lt_trans hj (idxBytes_pos hK.1).2
  have hw := (hK.2 _ hmem).1
  have hpk := (hK.2 _ hmem).2.1
  rw [hp] at hw hpk
  have htk : (wireBytes K.e K.idxBytes i ++ wires K.e K.s before xs ++ got ++ wires K.e K.s after ys).take K.idxBytes = wireBytes K.e K.idxBytes i := by
    rw [List.append_assoc, List.append_assoc, List.take_append_of_le_length (by rw [wireBytes_length]; exact Nat.le_refl _),
      List.take_of_length_le (by rw [wireBytes_length]; exact Nat.le_refl _)]
  have hdr : (wireBytes K.e K.idxBytes i ++ wires K.e K.s before xs ++ got ++ wires K.e K.s after ys).drop K.idxBytes =
      wires K.e K.s before xs ++ (got ++ wires K.e K.s after ys) := by
    rw [List.append_assoc, List.append_assoc, List.drop_append, wireBytes_length, Nat.sub_self, List.drop_of_length_le (by rw [wireBytes_length]; exact Nat.le_refl _)]
    rfl
  unfold distortedCall
  rw [hd]
  simp only
  rw [Eff.bind_ret hup, htk, wireValue_wireBytes hib, hd]
  simp only
  rw [hdr, hp, unwires_around (fun _ _ h => safe_representable h) hw hpk hxs hgot hys]

/-- C107, buffered dispatcher. A call of which only the beginning of the request arrives does not return, and no function is called: the callee waits for the other bytes. -/
theorem C107_lost (hP : P.Valid) (hs : Supported P K.e K.s) (hQ : Setting Q K f defs) (ho : ResponsesFit K shared) (hdQ : AllDecodeSafe Q K) {line : Line σ}
    {b : Buf (Link σ)} {w w1 : σ} (hr : Reachable Q K f (hosted defs) shared (b, ⟨[], [], w⟩)) (hp : Pending b []) {i : Nat} (hi : i < K.decls.length) {args : List Val}
    (hf : Val.FitsAll (Safe P K.s) K.decls[i].sig.params args) {got : List Byte}
    (hup : line.up (request K.e K.s K.idxBytes i K.decls[i].sig.params args) w = .ret got w1)
    (hpre : got <+: request K.e K.s K.idxBytes i K.decls[i].sig.params args) (hne : got ≠ request K.e K.s K.idxBytes i K.decls[i].sig.params args) :
    noisyCall P Link.beside (serveBuffered Q) line ⟨K.e, K.s, K.idxBytes, i, K.decls[i].sig⟩ args (b, ⟨[], [], w⟩) = .fault .starved :=
  lost_server hP hQ.ring hs (buffered_any hQ ho hdQ) hi hf (t := (b, ⟨[], [], w⟩)) ⟨hr, hp⟩ rfl hup hpre hne

/-- C107, unbuffered dispatcher. -/
theorem C107_lost_unbuffered (hP : P.Valid) (hQ : Q.Valid) (hK : KeyringOk K) (hsP : Supported P K.e K.s) (hsQ : Supported Q K.e K.s)
    (ht : ∀ d ∈ K.decls, WellTyped Q K.s ⟨d.sig, defs d.name⟩) (hdQ : AllDecodeSafe Q K) {line : Line σ} (f : Features) {w w1 : σ} {i : Nat} (hi : i < K.decls.length)
    {args : List Val} (hf : Val.FitsAll (Safe P K.s) K.decls[i].sig.params args) {got : List Byte}
    (hup : line.up (request K.e K.s K.idxBytes i K.decls[i].sig.params args) w = .ret got w1)
    (hpre : got <+: request K.e K.s K.idxBytes i K.decls[i].sig.params args) (hne : got ≠ request K.e K.s K.idxBytes i K.decls[i].sig.params args) :
    noisyCall P (Lens.whole _) (serveUnbuffered Q (Dispatcher.make K f (hosted defs))) line ⟨K.e, K.s, K.idxBytes, i, K.decls[i].sig⟩ args ⟨[], [], w⟩ = .fault .starved :=
  lost_server hP hK hsP (unbuffered_any (f := f) hQ hK hsQ ht hdQ) hi hf (t := (⟨[], [], w⟩ : Link σ)) trivial rfl hup hpre hne

/-! Examples. -/

/-- A line which flips the lowest bit of the last byte of a message of two bytes or more. -/
def flipLast (bs : List Byte) : List Byte := if bs.length < 2 then bs else bs.set (bs.length - 1) (bs.getLastD 0 ^^^ 1)

def flipping (σ : Type) : Line σ := ⟨fun bs => pure (flipLast bs), fun bs => pure (flipLast bs)⟩

theorem flipLast_length (bs : List Byte) : (flipLast bs).length = bs.length := by
  unfold flipLast; split <;> simp

theorem flipLast_take {bs : List Byte} : (flipLast bs).take 1 = bs.take 1 := by
  unfold flipLast
  split
  · rfl
  · rw [List.take_set_of_le (by omega)]

theorem led_results : ResultsDecodeSafe pc ledRing := by
  simp [ResultsDecodeSafe, ledRing, DecodeSafe, pc]

theorem flipping_frames : Spec.Line.Frames pc ledRing (flipping (List Byte × List (List Val) × List Byte)) where
  up := by
    intro i d args w bs w' hd hf h
    injection h with h1 _
    subst h1
    have hmem := List.mem_of_getElem? hd
    have hib : i < 256 := Nat.lt_trans (List.getElem?_eq_some_iff.mp hd).1 (by decide)
    have h1 : ledRing.idxBytes = 1 := by decide
    have hl := wires_length (e := ledRing.e) (s := ledRing.s) (ledRing_ok.2 _ hmem).2.1 hf
    refine ⟨by rw [flipLast_length, request, List.length_append, wireBytes_length, hl], d, ?_, rfl, rfl⟩
    rw [h1, flipLast_take, request, List.take_append_of_le_length (by simp [wireBytes_length]), List.take_of_length_le (by simp [wireBytes_length]),
      wireValue_wireBytes (by simpa using hib)]
    exact hd
  down := by
    intro bs w bs' w' h
    injection h with h1 _
    subst h1
    exact flipLast_length _

/-- A program which calls the first function, and the third one if the result is less than 1000. -/
def adding : Talk (List Byte × List (List Val) × List Byte) (Option Val) :=
  .call 0 [.int 300, .int 7] fun r =>
    match r with
    | some (.int z) => if z < 1000 then .call 2 [.arr [.int 4, .int 5]] .done else .done r
    | _ => .done none

theorem adding_ok : TalkOk pc ledRing adding := by
  refine ⟨⟨_, rfl, by simp [Val.FitsAll, Val.Fits]⟩, fun r => ?_⟩
  dsimp only
  split
  · split
    · exact ⟨⟨_, rfl, by simp [Val.FitsAll, Val.Fits]⟩, fun _ => trivial⟩
    · trivial
  · trivial

/-- The second argument of the first call arrives as 6, its result as 50 instead of 306, the second item of the array as 4, and the result of the second call as -257 instead of -1. -/
theorem adding_distorted : distorted (flipping _) ledRing ledDefs adding ([], [], []) =
    .ret (some (.int (-257))) ([], [[.int 1, .int 300, .int 6], [.int 3, .int 4, .int 4]], []) := rfl

example : ∃ b', adding.remote pc ledRing Link.beside (serveBuffered pc) (flipping _) (fresh pc ledRing .any (hosted ledDefs) 255 true, ⟨[], [], ([], [], [])⟩) =
    .ret (some (.int (-257))) (b', ⟨[], [], ([], [[.int 1, .int 300, .int 6], [.int 3, .int 4, .int 4]], [])⟩) := by
  have h := C107_distorted pc_valid (pc_supported _ _) (led_setting .any) (led_fit true) led_decode led_results flipping_frames adding adding_ok
    (w := ([], [], [])) ⟨255, _, .start⟩ (fresh_pending _ _ _ _ _ _)
  rw [adding_distorted] at h
  obtain ⟨b', h1, _⟩ := h
  exact ⟨b', h1⟩

example (f : Features) : adding.remote pc ledRing (Lens.whole _) (serveUnbuffered pc (Dispatcher.make ledRing f (hosted ledDefs))) (flipping _) ⟨[], [], ([], [], [])⟩ =
    .ret (some (.int (-257))) ⟨[], [], ([], [[.int 1, .int 300, .int 6], [.int 3, .int 4, .int 4]], [])⟩ := by
  have h := C107_distorted_unbuffered pc_valid pc_valid ledRing_ok (pc_supported _ _) (pc_supported _ _) (led_setting .any).typed led_decode led_results
    flipping_frames adding adding_ok f ([], [], [])
  rw [adding_distorted] at h
  exact h

/-- A line which alters nothing. -/
def perfect (σ : Type) : Line σ := ⟨fun bs => pure bs, fun bs => pure bs⟩

example (w : List Byte × List (List Val) × List Byte) : distorted (perfect _) ledRing ledDefs adding w = direct ledRing ledDefs adding w :=
  C107_perfect ledRing_ok (led_setting .any).typed (fun _ => rfl) (fun _ => rfl) adding adding_ok w

example : direct ledRing ledDefs adding ([], [], []) = .ret (some (.int (-1))) ([], [[.int 1, .int 300, .int 7], [.int 3, .int 4, .int 5]], []) := rfl

example (w : List Byte × List (List Val) × List Byte) : distortedCall (perfect _) ledRing ledDefs 2 [.arr [.int 4, .int 5]] w =
    .ret (some (.int (-1))) (w.1, w.2.1 ++ [[.int 3, .int 4, .int 5]], w.2.2) :=
  C107_unaltered ledRing_ok (i := 2) rfl ((led_setting .any).typed _ (by simp [ledRing])) (by simp [Val.FitsAll, Val.Fits]) rfl rfl rfl

/-- A line on which the second argument of the first call arrives as 6: the request which arrives is another one. -/
example (w : List Byte × List (List Val) × List Byte) : distortedCall (flipping _) ledRing ledDefs 0 [.int 300, .int 7] w =
    .ret (some (.int 50)) (w.1, w.2.1 ++ [[.int 1, .int 300, .int 6]], w.2.2) := by
  rw [C107_arrives (P := pc) ledRing_ok (i := 0) (j := 0) rfl rfl (args' := [.int 300, .int 6]) (w1 := w) (by simp [Val.FitsAll, Val.Fits]) rfl]
  rfl

example (w : List Byte × List (List Val) × List Byte) : distortedCall (flipping _) ledRing ledDefs 0 [.int 300, .int 7] w =
    .ret (some (.int 50)) (w.1, w.2.1 ++ [[.int 1, .int 300, .int 6]], w.2.2) := by
  have h := C107_one_argument (P := pc) (defs := ledDefs) (line := flipping _) ledRing_ok (i := 0) rfl (before := [.uint 2]) (t := .uint 1) (after := []) rfl
    (xs := [.int 300]) (x := .int 7) (ys := []) (by simp [Val.FitsAll, Val.Fits]) (by simp [Val.Fits]) (by simp [Val.FitsAll]) (got := [6#8]) rfl (w := w) (w1 := w) rfl
  exact h.trans rfl

/-- A line which loses the last byte. -/
def losing (σ : Type) : Line σ := ⟨fun bs => pure bs.dropLast, fun bs => pure bs⟩

example (w : List Byte × List (List Val) × List Byte) : noisyCall pc Link.beside (serveBuffered pc) (losing _) ⟨ledRing.e, ledRing.s, ledRing.idxBytes, 0, ledRing.decls[0].sig⟩
    [.int 300, .int 7] (fresh pc ledRing .any (hosted ledDefs) 255 true, ⟨[], [], w⟩) = .fault .starved :=
  C107_lost pc_valid (pc_supported _ _) (led_setting .any) (led_fit true) led_decode ⟨255, _, .start⟩ (fresh_pending _ _ _ _ _ _) (by decide)
    (by simp [Val.FitsAll, Val.Fits, ledRing]) (w1 := w) rfl (List.dropLast_prefix _) (by decide)

example (w : List Byte × List (List Val) × List Byte) (f : Features) : noisyCall pc (Lens.whole _) (serveUnbuffered pc (Dispatcher.make ledRing f (hosted ledDefs))) (losing _)
    ⟨ledRing.e, ledRing.s, ledRing.idxBytes, 0, ledRing.decls[0].sig⟩ [.int 300, .int 7] ⟨[], [], w⟩ = .fault .starved :=
  C107_lost_unbuffered pc_valid pc_valid ledRing_ok (pc_supported _ _) (pc_supported _ _) (led_setting .any).typed led_decode f (by decide)
    (by simp [Val.FitsAll, Val.Fits, ledRing]) (w1 := w) rfl (List.dropLast_prefix _) (by decide)

end Upd
