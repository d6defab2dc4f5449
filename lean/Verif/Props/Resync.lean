import Verif.Props.BufferSafety
import Verif.Props.TypeList

/-!
# Resynchronisation (C73)

A caller may stop in the middle of a request (it is reset, or bytes are lost). The callee still waits for the end of it. If
the keyring has fewer than 256 functions, the caller can bring it back between two packets by sending bytes which are not the
index of a function.
-/

namespace Upd
open Spec TypeList

variable {σ : Type} {P : Platform} {K : Keyring} {f : Features} {defs : Nat → List Val → Eff σ (Option Val)} {shared : Bool}

theorem idxBytes_one (hK : K.decls.length < 256) : K.idxBytes = 1 := by
  unfold Keyring.idxBytes
  rcases smallestUnsigned_cases K.decls.length (by omega) with h | h | h | h <;> omega

theorem puts_cons (x : Byte) (xs : List Byte) (st : BState σ) :
    puts P (x :: xs) st = (Buf.put P x >>= fun s => puts P xs >>= fun sts => pure (s :: sts)) st := rfl

theorem puts_cons_ret {x : Byte} {xs : List Byte} {st st1 st2 : BState σ} {s : Status} {sts : List Status}
    (h1 : Buf.put P x st = .ret s st1) (h2 : puts P xs st1 = .ret sts st2) : puts P (x :: xs) st = .ret (s :: sts) st2 := by
  rw [puts_cons, Eff.bind_ret h1, Eff.bind_ret h2]
  rfl

theorem reachable_put {b b' : Buf σ} {w w' : σ} {x : Byte} {s : Status} (hr : Reachable P K f defs shared (b, w))
    (h : Buf.put P x (b, w) = .ret s (b', w')) : Reachable P K f defs shared (b', w') := by
  obtain ⟨n, w0, hr⟩ := hr
  exact ⟨n, w0, .ret (.put x) hr trivial (by show (Buf.put P x >>= fun _ => pure ()) (b, w) = _; rw [Eff.bind_ret h]; rfl)⟩

/-- C73, between two packets: the filler bytes are dropped, and nothing else happens. -/
theorem C73_idle (h : Setting P K f defs) (hK : K.decls.length < 256) {x : Byte} (hx : K.decls.length ≤ x.toNat) (n : Nat) :
    ∀ {b : Buf σ} {w : σ}, Reachable P K f defs shared (b, w) → Pending b [] →
    ∃ b', puts P (List.replicate n x) (b, w) = .ret (List.replicate n .dropped) (b', w) ∧
      Reachable P K f defs shared (b', w) ∧ Pending b' [] := by
  induction n with
  | zero => intro b w hr hp; exact ⟨b, rfl, hr, hp⟩
  | succ n ih =>
    intro b w hr hp
    obtain ⟨b1, h1, h2, _⟩ := C40_dropped h hr (l := []) (x := x) (by rw [idxBytes_one hK]; rfl)
      (by cases K.e <;> simpa [wireValue, leValue] using hx) hp
    obtain ⟨b2, h3, h4, h5⟩ := ih (reachable_put hr h1) h2
    exact ⟨b2, puts_cons_ret h1 h3, h4, h5⟩

theorem wireValue_one (e : Endian) (i : Byte) : wireValue e [i] = i.toNat := by
  cases e <;> simp [wireValue, leValue]

/-- What completing a request with filler bytes does. -/
def Flushed (P : Platform) (K : Keyring) (f : Features) (defs : Nat → List Val → Eff σ (Option Val)) (shared : Bool)
    (d : Decl) (args : List Byte) (x : Byte) (n m : Nat) (b : Buf σ) (w : σ) : Prop :=
  match defs d.name (unwires K.e K.s d.sig.params (args ++ List.replicate m x)) w with
  | .ret _ w' => ∃ b', puts P (List.replicate n x) (b, w) =
        .ret (List.replicate (m - 1) .loading ++ .resolved :: List.replicate (n - m) .dropped) (b', w') ∧
      Reachable P K f defs shared (b', w') ∧ Pending b' []
  | .threw w' => ∃ b', puts P (List.replicate n x) (b, w) = .threw (b', w')
  | .fault flt => puts P (List.replicate n x) (b, w) = .fault flt

theorem flushed (h : Setting P K f defs) (ho : ResponsesFit K shared) (hs : AllDecodeSafe P K) (hK : K.decls.length < 256)
    {x : Byte} (hx : K.decls.length ≤ x.toNat) {i : Byte} (hi : i.toNat < K.decls.length) :
    ∀ (m : Nat) {args : List Byte} {b : Buf σ} {w : σ}, Reachable P K f defs shared (b, w) → Pending b (i :: args) →
      1 ≤ m → args.length + m = wireSizes K.decls[i.toNat].sig.params → ∀ n, m ≤ n →
      Flushed P K f defs shared K.decls[i.toNat] args x n m b w := by
  intro m
  induction m with
  | zero => intro args b w _ _ h1; omega
  | succ m ih =>
    intro args b w hr hp _ hlen n hn
    obtain ⟨n', rfl⟩ : ∃ n', n = n' + 1 := ⟨n - 1, by omega⟩
    obtain ⟨hb, hout, _, out, hm⟩ := reachable_pending h hr hp
    have hone := idxBytes_one hK
    have hcb : (protoOf K defs).cbs[i.toNat]? = some ⟨K.decls[i.toNat].sig, defs K.decls[i.toNat].name⟩ := by
      simp [protoOf, hi]
    have hcl : (protoOf K defs).classify ((i :: args) ++ [x]) =
        if m = 0 then .request ⟨K.decls[i.toNat].sig, defs K.decls[i.toNat].name⟩ (args ++ [x]) else .more := by
      have hidx : (protoOf K defs).idxBytes = 1 := hone
      unfold Proto.classify
      rw [hidx, if_neg (by simp)]
      have : ((i :: args) ++ [x]).take 1 = [i] := rfl
      rw [this, wireValue_one, hcb]
      simp only []
      by_cases h0 : m = 0
      · rw [if_neg (by simp; omega), if_pos h0]; rfl
      · rw [if_pos (by simp; omega), if_neg h0]
    unfold Flushed
    by_cases h0 : m = 0
    · subst h0
      rw [if_pos rfl] at hcl
      rcases put_cases h.valid hm.inp hb x w with ⟨hc, _⟩ | ⟨hc, _⟩ | ⟨cb, as, hc, hmem, _, h1⟩
      · rw [hcl] at hc; cases hc
      · rw [hcl] at hc; cases hc
      · rw [hcl] at hc
        injection hc with e1 e2
        subst e1 e2
        obtain ⟨d, hd, hde⟩ := protoOf_mem hmem
        have er : args ++ List.replicate (0 + 1) x = args ++ [x] := rfl
        rw [er]
        rcases h1 with ⟨_, ⟨r, w1, h2, _, ⟨b1, h3, h4, _⟩ | ⟨h3, _⟩⟩ | ⟨w1, b1, h2, h3⟩ | ⟨flt, h2, h3⟩⟩ | ⟨flt, _, h2, _⟩
        · have h2' : defs K.decls[i.toNat].name (unwires K.e K.s K.decls[i.toNat].sig.params (args ++ [x])) w = .ret r w1 := h2
          rw [h2']
          obtain ⟨b2, h5, h6, h7⟩ := C73_idle h hK hx n' (reachable_put hr h3) (pending_relIn h4)
          exact ⟨b2, puts_cons_ret h3 h5, h6, h7⟩
        · have := ho K.decls[i.toNat] (List.getElem_mem hi)
          rw [hout] at h3
          exact absurd this (Nat.not_le_of_lt h3)
        · have h2' : defs K.decls[i.toNat].name (unwires K.e K.s K.decls[i.toNat].sig.params (args ++ [x])) w = .threw w1 := h2
          rw [h2']
          exact ⟨b1, by rw [List.replicate_succ, puts_cons, Eff.bind_threw h3]⟩
        · have h2' : defs K.decls[i.toNat].name (unwires K.e K.s K.decls[i.toNat].sig.params (args ++ [x])) w = .fault flt := h2
          rw [h2']
          show puts P (x :: List.replicate n' x) (b, w) = _
          rw [puts_cons, Eff.bind_fault h3]
        · have := (readAll_decodeSafe h.valid h.sup (hb.serves.sig _ hmem).1 (hb.serves.sig _ hmem).2.1
            (hs _ (List.getElem_mem hi)) (bs := args ++ [x]) (by simp; omega)).1
          have h2' : readAll P K.e K.s K.decls[i.toNat].sig.params (args ++ [x]) 0 = .error flt := h2
          rw [h2'] at this
          cases this
    · rw [if_neg h0] at hcl
      obtain ⟨b1, h1, h2, _⟩ := put_more h.valid hm.inp hb hcl w
      have := ih (args := args ++ [x]) (reachable_put hr h1) (pending_relIn h2) (by omega) (by simp; omega) n' (by omega)
      unfold Flushed at this
      have e1 : args ++ [x] ++ List.replicate m x = args ++ List.replicate (m + 1) x := by simp [List.replicate_succ]
      rw [e1] at this
      cases hd : defs K.decls[i.toNat].name (unwires K.e K.s K.decls[i.toNat].sig.params (args ++ List.replicate (m + 1) x)) w with
      | ret r w' =>
        rw [hd] at this
        obtain ⟨b2, h3, h4, h5⟩ := this
        refine ⟨b2, ?_, h4, h5⟩
        rw [List.replicate_succ, puts_cons_ret h1 h3]
        have : m + 1 - 1 = (m - 1) + 1 := by omega
        have e2 : n' + 1 - (m + 1) = n' - m := by omega
        rw [this, e2, List.replicate_succ, List.cons_append]
      | threw w' =>
        rw [hd] at this
        obtain ⟨b2, h3⟩ := this
        exact ⟨b2, by rw [List.replicate_succ, puts_cons, Eff.bind_ret h1, Eff.bind_threw h3]⟩
      | fault flt =>
        rw [hd] at this
        show puts P _ _ = _
        rw [List.replicate_succ, puts_cons, Eff.bind_ret h1, Eff.bind_fault this]

/-- C73, in the middle of a request: what has been received is the index of a function and a part of its arguments. The filler
bytes stand for the missing ones: the function is called once, on what the bytes stand for (if it throws, so does `put`), and
the filler bytes which follow are dropped. -/
theorem C73_interrupted (h : Setting P K f defs) (ho : ResponsesFit K shared) (hs : AllDecodeSafe P K)
    (hK : K.decls.length < 256) {x : Byte} (hx : K.decls.length ≤ x.toNat) {b : Buf σ} {w : σ}
    (hr : Reachable P K f defs shared (b, w)) {l : List Byte} (hp : Pending b l) (hne : l ≠ []) :
    ∃ (i : Byte) (args : List Byte) (hi : i.toNat < K.decls.length), l = i :: args ∧
      args.length < wireSizes K.decls[i.toNat].sig.params ∧
      ∀ n, wireSizes K.decls[i.toNat].sig.params - args.length ≤ n →
        Flushed P K f defs shared K.decls[i.toNat] args x n (wireSizes K.decls[i.toNat].sig.params - args.length) b w := by
  obtain ⟨hb, _, _, out, hm⟩ := reachable_pending h hr hp
  obtain ⟨i, args, rfl⟩ := List.exists_cons_of_ne_nil hne
  have hone : (protoOf K defs).idxBytes = 1 := idxBytes_one hK
  rcases hm.inp.load with ⟨h1, _⟩ | ⟨_, _, cb, h2, h3, _⟩
  · rw [hone] at h1; simp at h1
  · rw [hone] at h2 h3
    have ht : (i :: args).take 1 = [i] := rfl
    rw [ht, wireValue_one] at h2
    have hi : i.toNat < K.decls.length := by
      have := (List.getElem?_eq_some_iff.mp h2).1
      simpa [protoOf] using this
    have hcb : (protoOf K defs).cbs[i.toNat]? = some ⟨K.decls[i.toNat].sig, defs K.decls[i.toNat].name⟩ := by
      simp [protoOf, hi]
    rw [hcb] at h2
    injection h2 with h2
    subst h2
    have h3 : args.length < wireSizes K.decls[i.toNat].sig.params := by simp at h3; omega
    exact ⟨i, args, hi, rfl, h3, fun n hn => flushed h ho hs hK hx hi _ hr hp (by omega) (by omega) n hn⟩

/-- C73. After any history, as many filler bytes as the longest argument list bring the dispatcher between two packets,
calling at most one function. The next request is then served (C39). -/
theorem C73_resynchronised (h : Setting P K f defs) (ho : ResponsesFit K shared) (hs : AllDecodeSafe P K)
    (hK : K.decls.length < 256) (ht : NeverThrow K defs) (hf : ∀ d ∈ K.decls, ∀ args w flt, defs d.name args w ≠ .fault flt)
    {x : Byte} (hx : K.decls.length ≤ x.toNat) {n : Nat} (hn : ∀ d ∈ K.decls, wireSizes d.sig.params ≤ n)
    {b : Buf σ} {w : σ} (hr : Reachable P K f defs shared (b, w)) :
    ∃ sts b' w', puts P (List.replicate n x) (b, w) = .ret sts (b', w') ∧ Reachable P K f defs shared (b', w') ∧
      Pending b' [] ∧ sts.count .resolved ≤ 1 := by
  obtain ⟨_, _, _, m, hm⟩ := reachable_inv h hr
  have hp := pending_relIn hm.inp
  generalize m.pending = l at hp
  cases l with
  | nil =>
    obtain ⟨b', h1, h2, h3⟩ := C73_idle h hK hx n hr hp
    refine ⟨_, b', w, h1, h2, h3, ?_⟩
    rw [List.count_replicate]
    simp
  | cons j js =>
    obtain ⟨i, args, hi, _, hlt, hfl⟩ := C73_interrupted h ho hs hK hx hr hp (by simp)
    have hmem := List.getElem_mem hi
    have := hfl n (by have := hn _ hmem; omega)
    unfold Flushed at this
    split at this
    · obtain ⟨b', h1, h2, h3⟩ := this
      refine ⟨_, b', _, h1, h2, h3, ?_⟩
      rw [List.count_append, List.count_cons, List.count_replicate, List.count_replicate]
      simp
    · rename_i w' he
      exact absurd he (ht _ hmem _ _ _)
    · rename_i flt he
      exact absurd he (hf _ hmem _ _ _)

/-! ### Example: the caller of `ledRing` is reset after three bytes -/

/-- The index of the third function, and one byte of the array which it takes. -/
def cutRequest : List Byte := [2#8, 4#8]

theorem cut_state : ∃ b, puts pc cutRequest (fresh pc ledRing .any ledDefs 255 true, ([], [], [])) =
      .ret [.loading, .loading] (b, ([], [], [])) ∧ Pending b cutRequest :=
  ⟨_, rfl, rfl, rfl⟩

example : ∃ b sts b' w', puts pc cutRequest (fresh pc ledRing .any ledDefs 255 true, ([], [], [])) =
      .ret [.loading, .loading] (b, ([], [], [])) ∧
    puts pc (List.replicate 4 0xff#8) (b, ([], [], [])) = .ret sts (b', w') ∧ Pending b' [] ∧ sts.count .resolved ≤ 1 := by
  obtain ⟨b, h1, _⟩ := cut_state
  have hr : Reachable pc ledRing .any ledDefs true (b, ([], [], [])) := reachable_puts ⟨255, _, .start⟩ h1
  obtain ⟨sts, b', w', h2, _, h3, h4⟩ := C73_resynchronised (led_setting .any) (led_fit true) led_decode (by decide) led_noThrow
    led_noFault (x := 0xff#8) (by decide) (n := 4) (by simp [ledRing, wireSizes, wireSize]) hr
  exact ⟨b, sts, b', w', h1, h2, h3, h4⟩

/-- The function is called on the byte received and the first filler byte. -/
example : ∃ b b', puts pc cutRequest (fresh pc ledRing .any ledDefs 255 true, ([], [], [])) =
      .ret [.loading, .loading] (b, ([], [], [])) ∧
    puts pc (List.replicate 4 0xff#8) (b, ([], [], [])) =
      .ret [.resolved, .dropped, .dropped, .dropped] (b', ([], [[.int 3, .int 4, .int 255]], [])) := by
  obtain ⟨b, h1, hp⟩ := cut_state
  have hr : Reachable pc ledRing .any ledDefs true (b, ([], [], [])) := reachable_puts ⟨255, _, .start⟩ h1
  obtain ⟨i, args, hi, he, hlt, h2⟩ := C73_interrupted (led_setting .any) (led_fit true) led_decode (by decide)
    (x := 0xff#8) (by decide) hr hp (by decide)
  injection he with e1 e2
  subst e1 e2
  obtain ⟨b', h3, _⟩ := h2 4 (by show 1 ≤ 4; omega)
  exact ⟨b, b', h1, h3⟩

example : ∃ b', puts pc (List.replicate 3 7#8) (fresh pc ledRing .any ledDefs 255 false, ([], [], [])) =
      .ret (List.replicate 3 .dropped) (b', ([], [], [])) ∧
    Reachable pc ledRing .any ledDefs false (b', ([], [], [])) ∧ Pending b' [] :=
  C73_idle (led_setting .any) (by decide) (by decide) 3 ⟨255, _, .start⟩ (fresh_pending _ _ _ _ _ _)

end Upd
