import Verif.Lemmas.Retry
import Verif.Props.Session

/-!
# Calls which are repeated until there is a response

C109: a caller in blocking mode, whose byte getter throws if no byte arrives in time, repeats its calls on a line which may lose whole messages or deliver responses too late. `P` is the platform of the
caller and `Q` the one of the callee.
-/

namespace Upd
open Spec TypeList

variable {σ α : Type} {P Q : Platform} {K : Keyring} {f : Features} {defs : Nat → List Val → Eff σ (Option Val)} {shared : Bool}

/-- C109, buffered dispatcher. If the caller discards the bytes which have arrived too late before each attempt (`true`), a program whose calls are repeated behaves as the one which, without library, executes
each function once for each request which arrives, and uses the result of the last execution. Neither device is left in the middle of a message: the dispatcher is ready for the next request, and no byte
is on the way to it. -/
theorem C109_retried (hP : P.Valid) (hs : Supported P K.e K.s) (ht : ∀ d ∈ K.decls, WellTyped P K.s ⟨d.sig, defs d.name⟩) (hQ : Setting Q K f defs) (ho : ResponsesFit K shared)
    (ha : Audible K) (prog : Talk σ α) (hok : TalkFits P Q K prog) (fates : List Fate) {b : Buf (Link σ)} {w : σ} {down : List Byte}
    (hr : Reachable Q K f (hosted defs) shared (b, ⟨[], down, w⟩)) (hp : Pending b []) :
    match retried K defs prog fates w with
    | .ret a w' => ∃ b' down', prog.retrying P K Link.beside (serveBuffered Q) true fates (b, ⟨[], down, w⟩) = .ret a (b', ⟨[], down', w'⟩) ∧
        Reachable Q K f (hosted defs) shared (b', ⟨[], down', w'⟩) ∧ Pending b' []
    | .threw w' => ∃ b' l, prog.retrying P K Link.beside (serveBuffered Q) true fates (b, ⟨[], down, w⟩) = .threw (b', l) ∧ l.world = w'
    | .fault f => prog.retrying P K Link.beside (serveBuffered Q) true fates (b, ⟨[], down, w⟩) = .fault f := by
  have h := retrying_lands hP hQ.ring hs ht ha (buffered_server hQ ho) prog fates (t := (b, ⟨[], down, w⟩)) hok ⟨hr, hp⟩ rfl
  cases hd : retried K defs prog fates w with
  | fault e => rw [hd] at h; exact h
  | threw w' =>
    rw [hd] at h
    obtain ⟨⟨b', l⟩, h1, h2⟩ := h
    exact ⟨b', l, h1, h2⟩
  | ret a w' =>
    rw [hd] at h
    obtain ⟨⟨b', l⟩, down', h1, h2, h3⟩ := h
    have h3 : l = _ := h3
    subst h3
    exact ⟨b', down', h1, h2⟩

/-- C109, unbuffered dispatcher. -/
theorem C109_retried_unbuffered (hP : P.Valid) (hQ : Q.Valid) (hK : KeyringOk K) (hsP : Supported P K.e K.s) (hsQ : Supported Q K.e K.s)
    (htP : ∀ d ∈ K.decls, WellTyped P K.s ⟨d.sig, defs d.name⟩) (htQ : ∀ d ∈ K.decls, WellTyped Q K.s ⟨d.sig, defs d.name⟩) (ha : Audible K) (prog : Talk σ α)
    (hok : TalkFits P Q K prog) (f : Features) (fates : List Fate) (down : List Byte) (w : σ) :
    match retried K defs prog fates w with
    | .ret a w' => ∃ down', prog.retrying P K (Lens.whole _) (serveUnbuffered Q (Dispatcher.make K f (hosted defs))) true fates ⟨[], down, w⟩ = .ret a ⟨[], down', w'⟩
    | .threw w' => ∃ l, prog.retrying P K (Lens.whole _) (serveUnbuffered Q (Dispatcher.make K f (hosted defs))) true fates ⟨[], down, w⟩ = .threw l ∧ l.world = w'
    | .fault f' => prog.retrying P K (Lens.whole _) (serveUnbuffered Q (Dispatcher.make K f (hosted defs))) true fates ⟨[], down, w⟩ = .fault f' := by
  have h := retrying_lands hP hK hsP htP ha (unbuffered_server (f := f) hQ hK hsQ htQ) prog fates (t := (⟨[], down, w⟩ : Link σ)) hok trivial rfl
  cases hd : retried K defs prog fates w with
  | fault e => rw [hd] at h; exact h
  | threw w' => rw [hd] at h; exact h
  | ret a w' =>
    rw [hd] at h
    obtain ⟨l, down', h1, _, h3⟩ := h
    have h3 : l = _ := h3
    subst h3
    exact ⟨down', h1⟩

/-- C109. A function which returns something, and an attempt of which the request and the response arrive after attempts for which it was not the case: the function is executed once more for each of the
latter whose request has arrived, and the result is the one of the last execution. In particular the caller never gives up. -/
theorem C109_executions (g : Eff σ (Option Val)) : ∀ (lost : List Fate), .arrives ∉ lost → ∀ fates : List Fate,
    retriedCall g true (lost ++ .arrives :: fates) = (do
      times (lost.countP (· ≠ .requestLost)) g
      let r ← g
      pure (r, fates))
  | [], _, fates => by simp [retriedCall, times]
  | .arrives :: lost, h, fates => absurd (List.mem_cons_self ..) h
  | .requestLost :: lost, h, fates => by
    have ih := C109_executions g lost (fun hm => h (List.mem_cons_of_mem _ hm)) fates
    simp only [List.cons_append, retriedCall, if_true, ih]
    rw [List.countP_cons_of_neg (by simp)]
  | .responseLost :: lost, h, fates => by
    have ih := C109_executions g lost (fun hm => h (List.mem_cons_of_mem _ hm)) fates
    simp only [List.cons_append, retriedCall, if_true, ih]
    rw [List.countP_cons_of_pos (by simp)]
    simp only [times, bind_assoc]
  | .late :: lost, h, fates => by
    have ih := C109_executions g lost (fun hm => h (List.mem_cons_of_mem _ hm)) fates
    simp only [List.cons_append, retriedCall, if_true, ih]
    rw [List.countP_cons_of_pos (by simp)]
    simp only [times, bind_assoc]

/-- Repeating a call of a function to which it makes no difference. -/
theorem retriedCall_repeatable {g : Eff σ (Option Val)} (hg : ∀ w r w', g w = .ret r w' → g w' = .ret r w') : ∀ {fates fates' : List Fate} {w w' : σ} {r : Option Val},
    retriedCall g true fates w = .ret (r, fates') w' → g w = .ret r w'
  | [], _, w, w', r, h => by cases h
  | .arrives :: fates, fates', w, w', r, h => by
    simp only [retriedCall] at h
    cases hx : g w with
    | fault e => rw [Eff.bind_fault hx] at h; cases h
    | threw w1 => rw [Eff.bind_threw hx] at h; cases h
    | ret r1 w1 => rw [Eff.bind_ret hx] at h; cases h; rfl
  | .requestLost :: fates, fates', w, w', r, h => by
    simp only [retriedCall, if_true] at h
    exact retriedCall_repeatable hg h
  | .responseLost :: fates, fates', w, w', r, h => by
    simp only [retriedCall, if_true] at h
    cases hx : g w with
    | fault e => rw [Eff.bind_fault hx] at h; cases h
    | threw w1 => rw [Eff.bind_threw hx] at h; cases h
    | ret r1 w1 =>
      rw [Eff.bind_ret hx] at h
      have := retriedCall_repeatable hg h
      rw [hg _ _ _ hx] at this
      exact this
  | .late :: fates, fates', w, w', r, h => by
    simp only [retriedCall, if_true] at h
    cases hx : g w with
    | fault e => rw [Eff.bind_fault hx] at h; cases h
    | threw w1 => rw [Eff.bind_threw hx] at h; cases h
    | ret r1 w1 =>
      rw [Eff.bind_ret hx] at h
      have := retriedCall_repeatable hg h
      rw [hg _ _ _ hx] at this
      exact this

/-- C109. If the functions which the program calls return something and are idempotent, the program, when it does not give up, has the same result and the same effect as with direct calls, whatever the
line has lost or delayed. -/
theorem C109_idempotent : ∀ {prog : Talk σ α}, TalkRepeatable K defs prog → ∀ {fates fates' : List Fate} {w w' : σ} {a : α},
    retried K defs prog fates w = .ret (a, fates') w' → direct K defs prog w = .ret a w'
  | .done a, _, fates, fates', w, w', _, h => by cases h; rfl
  | .look k, hok, fates, fates', w, w', a, h => C109_idempotent (prog := k w) (hok w) h
  | .act x k, hok, fates, fates', w, w', a, h => by
    have h : (x >>= fun _ => retried K defs k fates) w = .ret (a, fates') w' := h
    show (x >>= fun _ => direct K defs k) w = .ret a w'
    cases hx : x w with
    | fault e => rw [Eff.bind_fault hx] at h; cases h
    | threw w1 => rw [Eff.bind_threw hx] at h; cases h
    | ret u w1 =>
      rw [Eff.bind_ret hx] at h ⊢
      exact C109_idempotent (prog := k) hok h
  | .call i args k, hok, fates, fates', w, w', a, h => by
    simp only [retried] at h
    simp only [direct]
    cases hd : K.decls[i]? with
    | none => rw [hd] at h; cases h
    | some d =>
      rw [hd] at h
      simp only at h ⊢
      obtain ⟨hsome, hrep⟩ := hok.1 d hd
      rw [hsome] at h
      cases hx : retriedCall (defs d.name args) true fates w with
      | fault e => rw [Eff.bind_fault hx] at h; cases h
      | threw w1 => rw [Eff.bind_threw hx] at h; cases h
      | ret r w1 =>
        rw [Eff.bind_ret hx] at h
        rw [Eff.bind_ret (retriedCall_repeatable hrep (r := r.1) (fates' := r.2) hx)]
        exact C109_idempotent (hok.2 r.1) h

/-- C109, both: over a line which loses and delays messages, remote calls of idempotent functions, repeated until there is a response, are local calls. (Buffered dispatcher.) -/
theorem C109_once (hP : P.Valid) (hs : Supported P K.e K.s) (ht : ∀ d ∈ K.decls, WellTyped P K.s ⟨d.sig, defs d.name⟩) (hQ : Setting Q K f defs) (ho : ResponsesFit K shared)
    (ha : Audible K) {prog : Talk σ α} (hok : TalkFits P Q K prog) (hrep : TalkRepeatable K defs prog) {fates fates' : List Fate} {b b' : Buf (Link σ)} {w : σ} {down : List Byte}
    {l : Link σ} {a : α} (hr : Reachable Q K f (hosted defs) shared (b, ⟨[], down, w⟩)) (hp : Pending b [])
    (hrun : prog.retrying P K Link.beside (serveBuffered Q) true fates (b, ⟨[], down, w⟩) = .ret (a, fates') (b', l)) : direct K defs prog w = .ret a l.world := by
  have h := C109_retried hP hs ht hQ ho ha prog hok fates hr hp
  cases hd : retried K defs prog fates w with
  | fault e => rw [hd] at h; rw [hrun] at h; cases h
  | threw w' =>
    rw [hd] at h
    obtain ⟨_, _, h1, _⟩ := h
    rw [hrun] at h1
    cases h1
  | ret r w' =>
    rw [hd] at h
    obtain ⟨_, _, h1, _⟩ := h
    rw [hrun] at h1
    cases h1
    exact C109_idempotent hrep hd

/-- C109. The call of a function which returns nothing ends at once even if its request is lost: the function is not executed, and the caller does not know. -/
theorem C109_void (hP : P.Valid) (hs : Supported P K.e K.s) (ht : ∀ d ∈ K.decls, WellTyped P K.s ⟨d.sig, defs d.name⟩) (hQ : Setting Q K f defs) (ho : ResponsesFit K shared)
    (ha : Audible K) {i : Nat} (hi : i < K.decls.length) (hvoid : K.decls[i].sig.ret = none) {args : List Val} (hfP : Val.FitsAll (Safe P K.s) K.decls[i].sig.params args)
    (hfQ : Val.FitsAll (Safe Q K.s) K.decls[i].sig.params args) (fates : List Fate) {b : Buf (Link σ)} {w : σ} {down : List Byte}
    (hr : Reachable Q K f (hosted defs) shared (b, ⟨[], down, w⟩)) (hp : Pending b []) :
    ∃ b' down', retryCall P Link.beside (serveBuffered Q) true ⟨K.e, K.s, K.idxBytes, i, K.decls[i].sig⟩ args (.requestLost :: fates) (b, ⟨[], down, w⟩) =
      .ret (none, fates) (b', ⟨[], down', w⟩) := by
  have h := retryCall_lands hP hQ.ring hs ht ha (buffered_server hQ ho) hi hfP hfQ (.requestLost :: fates) (t := (b, ⟨[], down, w⟩)) ⟨hr, hp⟩ rfl
  rw [hvoid] at h
  obtain ⟨⟨b', l⟩, down', h1, _, h3⟩ := h
  have h3 : l = _ := h3
  subst h3
  exact ⟨b', down', h1⟩

/-- C109. If the caller does not discard the bytes which have arrived too late (`false`), the response of an earlier call is taken for the one of the next call, even if nothing is lost or delayed any
more; the response of the latter is then late in turn. Nothing in the messages tells which request a response answers. -/
theorem C109_stale (hP : P.Valid) (hs : Supported P K.e K.s) (hQ : Setting Q K f defs) (ho : ResponsesFit K shared) {i : Nat} (hi : i < K.decls.length) {args : List Val}
    (hfP : Val.FitsAll (Safe P K.s) K.decls[i].sig.params args) (hfQ : Val.FitsAll (Safe Q K.s) K.decls[i].sig.params args) (fates : List Fate) {b : Buf (Link σ)} {w w' : σ}
    {r0 r : Option Val} (hr0 : RetOk P K.s K.decls[i].sig.ret r0)
    (hr : Reachable Q K f (hosted defs) shared (b, ⟨[], response K.e K.s K.decls[i].sig.ret r0, w⟩)) (hp : Pending b []) (hd : defs K.decls[i].name args w = .ret r w') :
    ∃ b', retryCall P Link.beside (serveBuffered Q) false ⟨K.e, K.s, K.idxBytes, i, K.decls[i].sig⟩ args (.arrives :: fates)
        (b, ⟨[], response K.e K.s K.decls[i].sig.ret r0, w⟩) = .ret (r0, fates) (b', ⟨[], response K.e K.s K.decls[i].sig.ret r, w'⟩) ∧
      Reachable Q K f (hosted defs) shared (b', ⟨[], response K.e K.s K.decls[i].sig.ret r, w'⟩) ∧ Pending b' [] := by
  have hS := buffered_server (shared := shared) hQ ho
  have hsend := send_request hP hQ.ring hs hi hfP (L := Link.beside) (t := (b, ⟨[], response K.e K.s K.decls[i].sig.ret r0, w⟩)) rfl
  rw [List.nil_append] at hsend
  have hserve := hS.step i hi args [] (response K.e K.s K.decls[i].sig.ret r0) w
    (b, ⟨request K.e K.s K.idxBytes i K.decls[i].sig.params args, response K.e K.s K.decls[i].sig.ret r0, w⟩) hfQ ⟨reachable_world hr _, hp⟩ (by rw [List.append_nil]; rfl)
  rw [hd] at hserve
  obtain ⟨⟨b1, l⟩, h1, ⟨h2, h3⟩, h4⟩ := hserve
  have h4 : l = _ := h4
  subst h4
  have hread : Eff.zoom Link.beside (tryRead P ⟨K.e, K.s, K.idxBytes, i, K.decls[i].sig⟩)
      (b1, ⟨[], response K.e K.s K.decls[i].sig.ret r0 ++ response K.e K.s K.decls[i].sig.ret r, w'⟩) =
      .ret (some r0) (b1, ⟨[], response K.e K.s K.decls[i].sig.ret r, w'⟩) :=
    zoom_ret (L := Link.beside) (tryRead_ret hP (k := ⟨K.e, K.s, K.idxBytes, i, K.decls[i].sig⟩) hs (hQ.ring.2 _ (List.getElem_mem hi)) hr0 _ _ _)
  refine ⟨b1, ?_, reachable_world h2 _, h3⟩
  have hatt : attempt P Link.beside (serveBuffered Q) false ⟨K.e, K.s, K.idxBytes, i, K.decls[i].sig⟩ args .arrives (b, ⟨[], response K.e K.s K.decls[i].sig.ret r0, w⟩) =
      .ret (some r0) (b1, ⟨[], response K.e K.s K.decls[i].sig.ret r, w'⟩) := by
    unfold attempt
    simp only [Bool.false_eq_true, if_false, pure_bind]
    exact (Eff.bind_ret hsend).trans ((Eff.bind_ret h1).trans hread)
  exact (Eff.bind_ret hatt).trans rfl

/-! Examples. -/

/-- A function which sets a number and returns it, and a function which increments it, returning the new value, and a function which returns nothing. -/
def dialRing : Keyring := ⟨.big, .twosComplement, [⟨1, [.uint 2], some (.uint 2)⟩, ⟨2, [], some (.uint 2)⟩, ⟨3, [.uint 2], none⟩]⟩

def dialDefs : Nat → List Val → Eff Nat (Option Val) := fun name args w =>
  match name, args with
  | 1, [.int x] => .ret (some (.int x)) x.toNat
  | 2, [] => .ret (some (.int ((w + 1) % 65536 : Nat))) ((w + 1) % 65536)
  | 3, [.int x] => .ret none x.toNat
  | _, _ => .fault .illTyped

theorem dial_setting (f : Features) : Setting pc dialRing f dialDefs where
  valid := pc_valid
  ring := ⟨by decide, by simp [dialRing, SigOk, Ty.WFs, Ty.WF, PackedAll, Packed]⟩
  sup := pc_supported _ _
  sizes := by simp [dialRing, Ty.sizeof, wireSize]
  typed := by
    simp only [dialRing, List.mem_cons, List.not_mem_nil, or_false, forall_eq_or_imp, forall_eq]
    refine ⟨?_, ?_, ?_⟩
    · intro args w r w' hf h
      match args, hf with
      | [.int x], hf =>
        simp only [dialDefs] at h
        cases h
        simpa [RetOk, Val.FitsAll] using hf
    · intro args w r w' hf h
      match args, hf with
      | [], hf =>
        simp only [dialDefs] at h
        cases h
        simp only [RetOk, Val.Fits]
        omega
    · intro args w r w' hf h
      match args, hf with
      | [.int x], hf =>
        simp only [dialDefs] at h
        cases h
        simp [RetOk]

theorem dial_fit (shared : Bool) : ResponsesFit dialRing shared := by
  have h1 : neededOutput dialRing = 2 := rfl
  have h2 : neededInput dialRing = 3 := rfl
  intro d hd
  simp only [dialRing, List.mem_cons, List.not_mem_nil, or_false] at hd
  rcases hd with rfl | rfl | rfl <;> cases shared <;> simp [h1, h2, retSize, wireSize]

theorem dial_audible : Audible dialRing := by
  simp [Audible, dialRing, wireSize]

/-- Sets the number to 500, then to 7 more than what has been returned. -/
def dialling : Talk Nat (Option Val) :=
  .call 0 [.int 500] fun r =>
    match r with
    | some (.int z) => if 0 ≤ z ∧ z < 60000 then .call 0 [.int (z + 7)] .done else .done r
    | _ => .done none

theorem dialling_ok : TalkFits pc pc dialRing dialling := by
  refine ⟨⟨_, rfl, by simp [Val.FitsAll, Val.Fits], by simp [Val.FitsAll, Val.Fits]⟩, fun r => ?_⟩
  dsimp only
  split
  · split
    · rename_i z h
      have h1 : Val.FitsAll (Safe pc dialRing.s) [.uint 2] [.int (z + 7)] := by
        simp only [Val.FitsAll, Val.Fits, and_true]
        exact ⟨by omega, by omega⟩
      exact ⟨⟨_, rfl, h1, h1⟩, fun _ => trivial⟩
    · trivial
  · trivial

theorem dialling_repeatable : TalkRepeatable dialRing dialDefs dialling := by
  have h0 : ∀ z : Int, ∀ d, dialRing.decls[0]? = some d → d.sig.ret.isSome ∧ ∀ w r w', dialDefs d.name [.int z] w = .ret r w' → dialDefs d.name [.int z] w' = .ret r w' := by
    intro z d hd
    cases hd
    refine ⟨rfl, fun w r w' h => ?_⟩
    simp only [dialDefs] at h ⊢
    cases h
    rfl
  refine ⟨h0 500, fun r => ?_⟩
  dsimp only
  split
  · split
    · exact ⟨h0 _, fun _ => trivial⟩
    · trivial
  · trivial

/-- The response of the first attempt is lost, the request of the second one too; the third one succeeds. The response of the first attempt at the second call is late. -/
theorem dialling_run : retried dialRing dialDefs dialling [.responseLost, .requestLost, .arrives, .late, .arrives, .requestLost] 3 = .ret (some (.int 507), [.requestLost]) 507 := rfl

example : ∃ b' down', dialling.retrying pc dialRing Link.beside (serveBuffered pc) true [.responseLost, .requestLost, .arrives, .late, .arrives, .requestLost]
    (fresh pc dialRing .any (hosted dialDefs) 255 false, ⟨[], [1#8], 3⟩) = .ret (some (.int 507), [.requestLost]) (b', ⟨[], down', 507⟩) := by
  have h := C109_retried pc_valid (pc_supported _ _) (dial_setting .any).typed (dial_setting .any) (dial_fit false) dial_audible dialling dialling_ok
    [.responseLost, .requestLost, .arrives, .late, .arrives, .requestLost] (down := [1#8]) (w := 3) ⟨255, _, .start⟩ (fresh_pending _ _ _ _ _ _)
  rw [dialling_run] at h
  obtain ⟨b', down', h1, _⟩ := h
  exact ⟨b', down', h1⟩

example (f : Features) : ∃ down', dialling.retrying pc dialRing (Lens.whole _) (serveUnbuffered pc (Dispatcher.make dialRing f (hosted dialDefs))) true
    [.responseLost, .requestLost, .arrives, .late, .arrives, .requestLost] ⟨[], [1#8], 3⟩ = .ret (some (.int 507), [.requestLost]) ⟨[], down', 507⟩ := by
  have h := C109_retried_unbuffered pc_valid pc_valid (dial_setting .any).ring (pc_supported _ _) (pc_supported _ _) (dial_setting .any).typed (dial_setting .any).typed
    dial_audible dialling dialling_ok f [.responseLost, .requestLost, .arrives, .late, .arrives, .requestLost] [1#8] 3
  rw [dialling_run] at h
  exact h

/-- Three executions of a function which is not idempotent. -/
example : retriedCall (dialDefs 2 []) true [.responseLost, .requestLost, .late, .arrives, .late] 3 = .ret (some (.int 6), [.late]) 6 := by
  have h := C109_executions (dialDefs 2 []) [.responseLost, .requestLost, .late] (by decide) [.late]
  simp only [List.cons_append, List.nil_append] at h
  rw [h]
  rfl

example : direct dialRing dialDefs dialling 3 = .ret (some (.int 507)) 507 := C109_idempotent dialling_repeatable dialling_run

example {b' : Buf (Link Nat)} {l : Link Nat} {fates fates' : List Fate} {a : Option Val}
    (h : dialling.retrying pc dialRing Link.beside (serveBuffered pc) true fates (fresh pc dialRing .any (hosted dialDefs) 255 true, ⟨[], [], 3⟩) = .ret (a, fates') (b', l)) :
    a = some (.int 507) ∧ l.world = 507 := by
  have h1 := C109_once pc_valid (pc_supported _ _) (dial_setting .any).typed (dial_setting .any) (dial_fit true) dial_audible dialling_ok dialling_repeatable
    ⟨255, _, .start⟩ (fresh_pending _ _ _ _ _ _) h
  have h2 : direct dialRing dialDefs dialling 3 = .ret (some (.int 507)) 507 := rfl
  rw [h2] at h1
  injection h1 with h3 h4
  exact ⟨h3.symm, h4.symm⟩

/-- The number is not set. -/
example : ∃ b' down', retryCall pc Link.beside (serveBuffered pc) true ⟨dialRing.e, dialRing.s, dialRing.idxBytes, 2, dialRing.decls[2].sig⟩ [.int 9] [.requestLost, .arrives]
    (fresh pc dialRing .any (hosted dialDefs) 255 true, ⟨[], [], 3⟩) = .ret (none, [.arrives]) (b', ⟨[], down', 3⟩) :=
  C109_void pc_valid (pc_supported _ _) (dial_setting .any).typed (dial_setting .any) (dial_fit true) dial_audible (i := 2) (by decide) rfl
    (by simp [Val.FitsAll, Val.Fits, dialRing]) (by simp [Val.FitsAll, Val.Fits, dialRing]) _ ⟨255, _, .start⟩ (fresh_pending _ _ _ _ _ _)

/-- The response 41 of an earlier call was late: it is taken for the result of a call which sets the number to 9. -/
example : ∃ b', retryCall pc Link.beside (serveBuffered pc) false ⟨dialRing.e, dialRing.s, dialRing.idxBytes, 0, dialRing.decls[0].sig⟩ [.int 9] [.arrives]
    (fresh pc dialRing .any (hosted dialDefs) 255 true, ⟨[], [0#8, 41#8], 3⟩) = .ret (some (.int 41), []) (b', ⟨[], [0#8, 9#8], 9⟩) := by
  obtain ⟨b', h, _⟩ := C109_stale pc_valid (pc_supported _ _) (dial_setting .any) (dial_fit true) (i := 0) (by decide) (args := [.int 9])
    (by simp [Val.FitsAll, Val.Fits, dialRing]) (by simp [Val.FitsAll, Val.Fits, dialRing]) [] (r0 := some (.int 41)) (w := 3) (w' := 9) (r := some (.int 9))
    (by simp [RetOk, Val.Fits, dialRing]) ⟨255, _, .start⟩ (fresh_pending _ _ _ _ _ _) rfl
  exact ⟨b', h⟩

end Upd
