import Verif.Lemmas.Observe
import Verif.Props.Buffered

/-! Helper lemmas: a peer which calls functions. -/

namespace Upd
open Spec

variable {σ σ' α : Type}

/-! ### The relation at construction -/

theorem ActsSim.make {P : Platform} {K : Keyring} {f : Features} {R : σ → σ' → Prop} {defs : Nat → List Val → Eff σ (Option Val)}
    {defs' : Nat → List Val → Eff σ' (Option Val)} : ∀ (ds : List Decl), (∀ d ∈ ds, SigOk d.sig) →
    (∀ d ∈ ds, ∀ args, Val.FitsAll (Safe P K.s) d.sig.params args → SameRun R (defs d.name args) (defs' d.name args)) →
    ActsSim P K.e K.s R (ds.map fun d => makeAction f K.e K.s ⟨d.sig, defs d.name⟩) (ds.map fun d => makeAction f K.e K.s ⟨d.sig, defs' d.name⟩)
  | [], _, _ => .nil
  | d :: ds, h1, h2 => by
    refine .cons ?_ (ActsSim.make ds (fun d hd => h1 d (List.mem_cons_of_mem _ hd)) fun d hd => h2 d (List.mem_cons_of_mem _ hd))
    have h3 : CbSim P K.s R ⟨d.sig, defs d.name⟩ ⟨d.sig, defs' d.name⟩ := ⟨rfl, h1 d List.mem_cons_self, fun args ha => h2 d List.mem_cons_self args ha⟩
    cases f
    · exact .weak h3
    · exact .stored h3

theorem DispSim.make {P : Platform} {K : Keyring} (hK : KeyringOk K) {f : Features} {R : σ → σ' → Prop} {defs : Nat → List Val → Eff σ (Option Val)}
    {defs' : Nat → List Val → Eff σ' (Option Val)} (h : Indistinct P K R defs defs') : DispSim P R (Dispatcher.make K f defs) (Dispatcher.make K f defs') :=
  ⟨rfl, rfl, rfl, rfl, rfl, ActsSim.make K.decls hK.2 h⟩

theorem BufSim.fresh {P : Platform} {K : Keyring} (hK : KeyringOk K) (hs : Supported P K.e K.s) {f : Features} {R : σ → σ' → Prop}
    {defs : Nat → List Val → Eff σ (Option Val)} {defs' : Nat → List Val → Eff σ' (Option Val)} (h : Indistinct P K R defs defs') (sizeMax : Nat) (shared : Bool) :
    BufSim P R (Spec.fresh P K f defs sizeMax shared) (Spec.fresh P K f defs' sizeMax shared) := by
  cases shared <;> exact ⟨DispSim.make hK h, hs, rfl, rfl, rfl, rfl, rfl, rfl, rfl, rfl, rfl⟩

/-! ### Programs -/

theorem SimV.io {P : Platform} (hP : P.Valid) {R : σ → σ' → Prop} (op : Io) :
    SimV (BRel P R R) (· = ·) (op.run P : Eff (BState σ) Obs) (op.run P : Eff (BState σ') Obs) := by
  cases op with
  | put x => exact SimV.seq (SimV.put hP x) fun _ => SimV.pure rfl
  | get => exact SimV.seq SimV.popByte fun _ => SimV.pure rfl
  | isLoaded => exact fun st st' h => ⟨by rw [h.1.isLoaded], h⟩

theorem observer_sim {P : Platform} (hP : P.Valid) {R : σ → σ' → Prop} : ∀ (p : Observer α) {st : BState σ} {st' : BState σ'}, BRel P R R st st' →
    forget (p.run P st) = forget (p.run P st')
  | .done _, _, _, _ => rfl
  | .io op next, st, st', h => by
    have h1 := SimV.io hP op st st' h
    simp only [Observer.run]
    revert h1
    cases (op.run P st : Res (BState σ) Obs) <;> cases (op.run P st' : Res (BState σ') Obs) <;> intro h1
    · obtain ⟨rfl, h2⟩ := h1
      exact observer_sim hP (next _) h2
    · exact h1.elim
    · exact h1.elim
    · exact h1.elim
    · exact observer_sim hP (next _) h1
    · exact h1.elim
    · exact h1.elim
    · exact h1.elim
    · cases (show _ = _ from h1); rfl

theorem SimV.holderSide {L S S' : Type} {R : S → S' → Prop} (x : Eff L α) :
    SimV (Beside R) (· = ·) (Eff.zoom (holderSide L S) x) (Eff.zoom (Spec.holderSide L S') x) := by
  refine SimV.zoom (R := fun l l' => l = l') (fun t t' h => h.1) (fun t t' w w' h hw => ⟨hw, h.2⟩) ?_
  rintro l _ rfl
  cases x l with
  | ret a w => exact ⟨rfl, rfl⟩
  | threw w => exact rfl
  | fault f => exact rfl

theorem SimV.holderOp {P : Platform} (hP : P.Valid) {L S S' : Type} {R : S → S' → Prop} (op : HolderOp L) :
    SimV (BRel P (Beside R) (Beside R)) (· = ·) (op.run P : Eff (BState (L × S)) Obs) (op.run P : Eff (BState (L × S')) Obs) := by
  cases op with
  | io op => exact SimV.io hP op
  | readFrom src => exact SimV.seq (SimV.readFromB hP (SimV.holderSide src)) fun _ => SimV.pure rfl
  | writeTo dest => exact SimV.seq (SimV.writeTo fun x => SimV.holderSide (dest x)) fun _ => SimV.pure rfl
  | process src dest => exact SimV.seq (SimV.process hP (SimV.holderSide src) fun x => SimV.holderSide (dest x)) fun _ => SimV.pure rfl
  | reply k n output => exact SimV.seq (SimV.reply (fun x => SimV.holderSide (output x)) k n) fun _ => SimV.pure rfl
  | act x =>
    refine SimV.seq (SimV.zoom (R := fun l l' => l = l') (fun t t' h => h.2.1) (fun t t' w w' h hw => ⟨h.1, hw, h.2.2⟩) ?_) fun _ => SimV.pure rfl
    rintro l _ rfl
    cases x l with
    | ret a w => exact ⟨rfl, rfl⟩
    | threw w => exact rfl
    | fault f => exact rfl

theorem holder_sim {P : Platform} (hP : P.Valid) {L S S' : Type} {R : S → S' → Prop} : ∀ (p : Holder L α) {st : BState (L × S)} {st' : BState (L × S')},
    BRel P (Beside R) (Beside R) st st' → forget (p.run P st) = forget (p.run P st')
  | .done _, _, _, _ => rfl
  | .step op next, st, st', h => by
    have h1 := SimV.holderOp hP op st st' h
    simp only [Holder.run]
    revert h1
    cases (op.run P st : Res (BState (L × S)) Obs) <;> cases (op.run P st' : Res (BState (L × S')) Obs) <;> intro h1
    · obtain ⟨rfl, h2⟩ := h1
      dsimp only
      rw [h2.2.1]
      exact holder_sim hP (next _ _) h2
    · exact h1.elim
    · exact h1.elim
    · exact h1.elim
    · have h1 : BRel P (Beside R) (Beside R) _ _ := h1
      dsimp only
      rw [h1.2.1]
      exact holder_sim hP (next _ _) h1
    · exact h1.elim
    · exact h1.elim
    · exact h1.elim
    · cases (show _ = _ from h1); rfl

/-! ### A peer which calls functions -/

/-- Puts bytes. -/
def Observer.puts : List Byte → Observer α → Observer α
  | [], p => p
  | x :: xs, p => .io (.put x) fun _ => Observer.puts xs p

/-- Gets bytes. -/
def Observer.gets : Nat → (List Byte → Observer α) → Observer α
  | 0, k => k []
  | n + 1, k => .io .get fun o => Observer.gets n fun bs => k ((match o with | some (.byte x) => x | _ => 0) :: bs)

/-- Sends requests, and gets the bytes of the responses. -/
def Observer.probe (K : Keyring) : List (Nat × List Val) → List (List Byte) → Observer (List (List Byte))
  | [], acc => .done acc
  | (i, args) :: calls, acc =>
    match K.decls[i]? with
    | none => Observer.probe K calls acc
    | some d => Observer.puts (request K.e K.s K.idxBytes i d.sig.params args) (Observer.gets (retSize d.sig.ret) fun bs => Observer.probe K calls (acc ++ [bs]))

theorem run_puts {P : Platform} {p : Observer α} : ∀ {xs : List Byte} {st st' : BState σ} {sts : List Status}, puts P xs st = .ret sts st' →
    (Observer.puts xs p).run P st = p.run P st'
  | [], st, st', sts, h => by cases h; rfl
  | x :: xs, st, st', sts, h => by
    have h' : (Buf.put P x >>= fun s => puts P xs >>= fun ss => pure (s :: ss)) st = .ret sts st' := h
    cases hp : Buf.put P x st with
    | threw t => rw [Eff.bind_threw hp] at h'; cases h'
    | fault t => rw [Eff.bind_fault hp] at h'; cases h'
    | ret s t =>
      rw [Eff.bind_ret hp] at h'
      cases hg : puts P xs t with
      | threw t => rw [Eff.bind_threw hg] at h'; cases h'
      | fault t => rw [Eff.bind_fault hg] at h'; cases h'
      | ret ss t' =>
        rw [Eff.bind_ret hg] at h'
        cases h'
        have h1 : (Io.put x).run P st = .ret (.status s) t := Eff.bind_ret hp
        simp only [Observer.puts, Observer.run, h1]
        exact run_puts hg

theorem run_puts_fault {P : Platform} {p : Observer α} : ∀ {xs : List Byte} {st : BState σ} {f : Fault}, puts P xs st = .fault f →
    (Observer.puts xs p).run P st = .fault f
  | [], st, f, h => by cases h
  | x :: xs, st, f, h => by
    have h' : (Buf.put P x >>= fun s => puts P xs >>= fun ss => pure (s :: ss)) st = .fault f := h
    cases hp : Buf.put P x st with
    | threw t => rw [Eff.bind_threw hp] at h'; cases h'
    | fault t =>
      rw [Eff.bind_fault hp] at h'
      obtain rfl : t = f := by cases h'; rfl
      have h1 : (Io.put x).run P st = .fault t := Eff.bind_fault hp
      simp only [Observer.puts, Observer.run, h1]
    | ret s t =>
      rw [Eff.bind_ret hp] at h'
      have h1 : (Io.put x).run P st = .ret (.status s) t := Eff.bind_ret hp
      simp only [Observer.puts, Observer.run, h1]
      cases hg : puts P xs t with
      | threw t => rw [Eff.bind_threw hg] at h'; cases h'
      | fault t => rw [Eff.bind_fault hg] at h'; cases h'; exact run_puts_fault hg
      | ret ss t' => rw [Eff.bind_ret hg] at h'; cases h'

theorem run_gets {P : Platform} : ∀ {out : List Byte} {k : List Byte → Observer α} {b : Buf σ} {w : σ}, Unread b out →
    ∃ n, (Observer.gets out.length k).run P (b, w) = (k out).run P ({ b with obufNext := n }, w)
  | [], k, b, w, _ => ⟨b.obufNext, rfl⟩
  | x :: out, k, b, w, h => by
    obtain ⟨b', h1, h2, _, rfl⟩ := get_cons h w
    have h3 : Io.get.run P (b, w) = .ret (.byte x) ({ b with obufNext := b.obufNext + 1 }, w) := Eff.bind_ret h1
    obtain ⟨n, h4⟩ := run_gets (k := fun bs => k (x :: bs)) (w := w) h2
    refine ⟨n, ?_⟩
    simp only [List.length_cons, Observer.gets, Observer.run, h3]
    exact h4

/-- The responses. -/
def encs (K : Keyring) : List (Nat × List Val) → List (Option Val) → List (List Byte)
  | (i, _) :: calls, r :: rs =>
    match K.decls[i]? with
    | none => encs K calls (r :: rs)
    | some d => response K.e K.s d.sig.ret r :: encs K calls rs
  | _, _ => []

variable {P : Platform} {K : Keyring} {f : Features} {defs : Nat → List Val → Eff σ (Option Val)} {shared : Bool}

theorem asked_cons {i : Nat} {d : Decl} (hd : K.decls[i]? = some d) (args : List Val) (calls : List (Nat × List Val)) :
    asked K defs ((i, args) :: calls) = (defs d.name args >>= fun r => asked K defs calls >>= fun rs => pure (r :: rs)) := by
  simp only [asked, hd]

theorem probe_run (h : Setting P K f defs) (hn : NeverThrow K defs) : ∀ (calls : List (Nat × List Val)) (acc : List (List Byte)) {b : Buf σ} {w : σ},
    CallsFit P K calls → RelIn (protoOf K defs) b [] → BufOk P (protoOf K defs) b → OutRoom (protoOf K defs) b →
    match asked K defs calls w with
    | .ret rs w' => ∃ b', (Observer.probe K calls acc).run P (b, w) = .ret (acc ++ encs K calls rs) (b', w')
    | .threw _ => False
    | .fault f => (Observer.probe K calls acc).run P (b, w) = .fault f
  | [], acc, b, w, _, _, _, _ => ⟨b, by simp only [encs, List.append_nil]; rfl⟩
  | (i, args) :: calls, acc, b, w, hc, h1, h2, h3 => by
    obtain ⟨d, hd, hf⟩ := hc _ List.mem_cons_self
    dsimp only at hd hf
    have hc' : CallsFit P K calls := fun c hm => hc c (List.mem_cons_of_mem _ hm)
    obtain ⟨hi, rfl⟩ := List.getElem?_eq_some_iff.1 hd
    obtain ⟨h4, h5, h6⟩ := request_parts h hi hf
    have hcb := h2.serves.sig _ (mem_of_get h5)
    have h7 := puts_call h.valid w h1 h2 h4 h5 h6 (decodes_args h.valid h2.serves.sup hcb hf) (h3 _ (mem_of_get h5))
    have hun : unwires (protoOf K defs).e (protoOf K defs).s K.decls[i].sig.params (wires K.e K.s K.decls[i].sig.params args) = args :=
      unwires_wires h.valid h.sup hcb.1 hcb.2.1 hf
    simp only [hun] at h7
    rw [asked_cons hd]
    simp only [Observer.probe, hd]
    cases hr : defs K.decls[i].name args w with
    | threw w' => exact (hn _ (List.getElem_mem hi) args w w' hr).elim
    | fault flt =>
      rw [hr] at h7
      rw [Eff.bind_fault hr]
      exact run_puts_fault h7
    | ret r w1 =>
      rw [hr] at h7
      obtain ⟨b1, h8, h9, h10, h11⟩ := h7
      rw [Eff.bind_ret hr]
      have hret : RetOk P K.s K.decls[i].sig.ret r := h.typed _ (List.getElem_mem hi) args w r w1 hf hr
      have hlen := response_length (e := K.e) (h.ring.2 _ (List.getElem_mem hi)) hret
      obtain ⟨n, h12⟩ := run_gets (P := P) (k := fun bs => Observer.probe K calls (acc ++ [bs])) (w := w1) h10
      have h13 : (response (protoOf K defs).e (protoOf K defs).s K.decls[i].sig.ret r).length = retSize K.decls[i].sig.ret := hlen
      rw [h13] at h12
      have hs : Same b1 { b1 with obufNext := n } := ⟨rfl, rfl, rfl, rfl, rfl⟩
      have h14 := probe_run h hn calls (acc ++ [response K.e K.s K.decls[i].sig.ret r]) (b := { b1 with obufNext := n }) (w := w1) hc'
        ⟨h9.next, h9.le, h9.bytes, h9.load⟩ ((h2.same h11).same hs) ((h3.same h11).same hs)
      have h15 : (Observer.puts (request K.e K.s K.idxBytes i K.decls[i].sig.params args)
          (Observer.gets (retSize K.decls[i].sig.ret) fun bs => Observer.probe K calls (acc ++ [bs]))).run P (b, w) =
          (Observer.probe K calls (acc ++ [response K.e K.s K.decls[i].sig.ret r])).run P ({ b1 with obufNext := n }, w1) :=
        (run_puts h8).trans h12
      rw [h15]
      cases ha : asked K defs calls w1 with
      | threw w2 => rw [ha] at h14; exact h14.elim
      | fault flt => rw [ha] at h14; rw [Eff.bind_fault ha]; exact h14
      | ret rs w2 =>
        rw [ha] at h14
        rw [Eff.bind_ret ha]
        obtain ⟨b2, h16⟩ := h14
        refine ⟨b2, ?_⟩
        rw [h16]
        simp only [encs, hd, List.append_assoc, List.singleton_append]

theorem response_inj (hP : P.Valid) {e : Endian} {s : Mode} (hs : Supported P e s) {g : Sig} (hg : SigOk g) {r r' : Option Val} (hr : RetOk P s g.ret r)
    (hr' : RetOk P s g.ret r') (h : response e s g.ret r = response e s g.ret r') : r = r' := by
  obtain ⟨ps, ret⟩ := g
  cases ret with
  | none => cases r <;> cases r' <;> simp_all [RetOk]
  | some t =>
    obtain ⟨hw, hp⟩ := hg.2.2 t rfl
    cases r with
    | none => simp [RetOk] at hr
    | some v =>
      cases r' with
      | none => simp [RetOk] at hr'
      | some v' =>
        have h : wire e s t v = wire e s t v' := h
        have h1 := unwires_wires (e := e) hP hs (ts := [t]) (vs := [v]) ⟨hw, trivial⟩ ⟨hp, trivial⟩ ⟨hr, trivial⟩
        have h2 := unwires_wires (e := e) hP hs (ts := [t]) (vs := [v']) ⟨hw, trivial⟩ ⟨hp, trivial⟩ ⟨hr', trivial⟩
        simp only [wires, h] at h1 h2
        rw [h2] at h1
        cases h1
        rfl

/-- The results are determined by the responses. -/
theorem encs_inj (h : Setting P K f defs) {defs' : Nat → List Val → Eff σ' (Option Val)} {f' : Features} (h' : Setting P K f' defs') :
    ∀ {calls : List (Nat × List Val)} {rs rs' : List (Option Val)} {w w1 : σ} {w' w1' : σ'}, CallsFit P K calls → asked K defs calls w = .ret rs w1 →
    asked K defs' calls w' = .ret rs' w1' → encs K calls rs = encs K calls rs' → rs = rs'
  | [], rs, rs', w, w1, w', w1', _, ha, ha', _ => by cases ha; cases ha'; rfl
  | (i, args) :: calls, rs, rs', w, w1, w', w1', hc, ha, ha', he => by
    obtain ⟨d, hd, hf⟩ := hc _ List.mem_cons_self
    dsimp only at hd hf
    have hm : d ∈ K.decls := List.mem_of_getElem? hd
    rw [asked_cons hd] at ha ha'
    cases hr : defs d.name args w with
    | threw t => rw [Eff.bind_threw hr] at ha; cases ha
    | fault t => rw [Eff.bind_fault hr] at ha; cases ha
    | ret r t =>
      rw [Eff.bind_ret hr] at ha
      cases hr' : defs' d.name args w' with
      | threw t => rw [Eff.bind_threw hr'] at ha'; cases ha'
      | fault t => rw [Eff.bind_fault hr'] at ha'; cases ha'
      | ret r' t' =>
        rw [Eff.bind_ret hr'] at ha'
        cases hq : asked K defs calls t with
        | threw t => rw [Eff.bind_threw hq] at ha; cases ha
        | fault t => rw [Eff.bind_fault hq] at ha; cases ha
        | ret qs u =>
          rw [Eff.bind_ret hq] at ha
          cases hq' : asked K defs' calls t' with
          | threw t => rw [Eff.bind_threw hq'] at ha'; cases ha'
          | fault t => rw [Eff.bind_fault hq'] at ha'; cases ha'
          | ret qs' u' =>
            rw [Eff.bind_ret hq'] at ha'
            cases ha
            cases ha'
            simp only [encs, hd] at he
            injection he with h1 h2
            rw [response_inj h.valid h.sup (h.ring.2 d hm) (h.typed d hm args w r t hf hr) (h'.typed d hm args w' r' t' hf hr') h1,
              encs_inj h h' (fun c hm => hc c (List.mem_cons_of_mem _ hm)) hq hq' h2]

/-- States from which the same calls have the same outcomes. -/
theorem asked_sim {defs' : Nat → List Val → Eff σ' (Option Val)} (hn : NeverThrow K defs) :
    Indistinct P K (fun w w' => ∀ calls, CallsFit P K calls → forget (asked K defs calls w) = forget (asked K defs' calls w')) defs defs' := by
  intro d hm args hf w w' hw
  obtain ⟨i, hd⟩ := List.getElem?_of_mem hm
  have h1 := hw [(i, args)] (fun c hc => by rw [List.mem_singleton.1 hc]; exact ⟨d, hd, hf⟩)
  rw [asked_cons hd, asked_cons hd] at h1
  cases hr : defs d.name args w with
  | threw t => exact (hn d hm args w t hr).elim
  | fault t =>
    rw [Eff.bind_fault hr] at h1
    cases hr' : defs' d.name args w' with
    | threw t => rw [Eff.bind_threw hr'] at h1; cases h1
    | fault t => rw [Eff.bind_fault hr'] at h1; cases h1; rfl
    | ret r' t' => rw [Eff.bind_ret hr'] at h1; cases h1
  | ret r t =>
    rw [Eff.bind_ret hr] at h1
    cases hr' : defs' d.name args w' with
    | threw t => rw [Eff.bind_threw hr'] at h1; cases h1
    | fault t => rw [Eff.bind_fault hr'] at h1; cases h1
    | ret r' t' =>
      rw [Eff.bind_ret hr'] at h1
      cases h1
      refine ⟨rfl, fun calls hc => ?_⟩
      have h2 := hw ((i, args) :: calls) (fun c hm => by
        rcases List.mem_cons.1 hm with rfl | hm
        · exact ⟨d, hd, hf⟩
        · exact hc c hm)
      rw [asked_cons hd, asked_cons hd, Eff.bind_ret hr, Eff.bind_ret hr'] at h2
      cases hq : asked K defs calls t with
      | threw u =>
        rw [Eff.bind_threw hq] at h2
        cases hq' : asked K defs' calls t' with
        | threw u => rfl
        | fault u => rw [Eff.bind_fault hq'] at h2; cases h2
        | ret qs u => rw [Eff.bind_ret hq'] at h2; cases h2
      | fault u =>
        rw [Eff.bind_fault hq] at h2
        cases hq' : asked K defs' calls t' with
        | threw u => rw [Eff.bind_threw hq'] at h2; cases h2
        | fault u => rw [Eff.bind_fault hq'] at h2; cases h2; rfl
        | ret qs u => rw [Eff.bind_ret hq'] at h2; cases h2
      | ret qs u =>
        rw [Eff.bind_ret hq] at h2
        cases hq' : asked K defs' calls t' with
        | threw u => rw [Eff.bind_threw hq'] at h2; cases h2
        | fault u => rw [Eff.bind_fault hq'] at h2; cases h2
        | ret qs' u' => rw [Eff.bind_ret hq'] at h2; cases h2; rfl

end Upd
