import Verif.Spec.ServerSocket
import Verif.Props.Socket
/-
C89: what `TServerSocket.listen` does to the files and servers that are there.
-/

namespace Thrift.ServerSocket
open Spec.ServerSocket

/-! ### One server at a time -/

theorem close_fs (os : Os) (h : Option Nat) : (os.close h).fs = os.fs := by cases h <;> rfl

theorem close_self {os : Os} {h : Option Nat} {j : Nat} (hj : h ≠ some j) : (os.close h).socks j = os.socks j := by
  cases h with
  | none => rfl
  | some i =>
    simp only [Os.close, Os.set]
    rw [if_neg]
    intro e
    exact hj (by rw [e])

/-- After the decision whether to remove the file, with nothing at the path, `listen` returns and clients get to the server. -/
theorem listen_cleared (os : Os) (s : Server) (hl : s.path.length < 108) (hf : os.fs s.path = none) (hs : s.phase = .cleared) :
    let r1 := step os s
    let r2 := step r1.1 r1.2
    let r3 := step r2.1 r2.2
    r3.2 = { s with handle := some os.next, phase := .returned } ∧ r3.1.connect s.path = .ok os.next ∧
      (∀ q, q ≠ s.path → r3.1.fs q = os.fs q) ∧ ∀ i, i ≠ os.next → s.handle ≠ some i → r3.1.socks i = os.socks i := by
  have e1 : step os s = ((os.socket).2.close s.handle, { s with handle := some os.next, phase := .made os.next }) := by
    simp only [step, hs, Os.socket]
  have hf1 : ((os.socket).2.close s.handle).fs s.path = none := by
    rw [close_fs]; exact hf
  have e2 : step (step os s).1 (step os s).2 =
      ((((os.socket).2.close s.handle).put s.path (some (.socket os.next))).set os.next .bound, { s with handle := some os.next, phase := .bound os.next }) := by
    rw [e1]
    simp only [step, Os.bind, hf1, if_neg (Nat.not_le.mpr hl), Option.isSome_none, Bool.false_eq_true, if_false]
  dsimp only
  rw [e2]
  refine ⟨rfl, ?_, ?_, ?_⟩
  · simp [step, Os.connect, Os.set, Os.put, if_neg (Nat.not_le.mpr hl)]
  · intro q hq
    simp only [step, Os.set, Os.put, if_neg hq]
    rw [close_fs]; rfl
  · intro i hi hsi
    simp only [step, Os.set, if_neg hi, Os.put]
    rw [close_self hsi]
    simp [Os.socket, Os.set, hi]

/-- C89: there is nothing at the path, or a socket that nobody listens on (that of a server that has ended): `listen` returns and clients get to the server; nothing else changes. -/
theorem listen_takes (os : Os) (s : Server) (hl : s.path.length < 108)
    (hf : os.fs s.path = none ∨ ∃ i, os.fs s.path = some (.socket i) ∧ os.socks i ≠ .listening) :
    let r := listen os s
    r.2 = { s with handle := some os.next, phase := .returned } ∧ r.1.connect s.path = .ok os.next ∧
      (∀ q, q ≠ s.path → r.1.fs q = os.fs q) ∧ ∀ i, i ≠ os.next → s.handle ≠ some i → r.1.socks i = os.socks i := by
  rcases hf with hf | ⟨i, hf, hi⟩
  · have e1 : step os { s with phase := .entered } = (os, { s with phase := .cleared }) := by
      simp only [step, Os.connect, if_neg (Nat.not_le.mpr hl), hf]
    have := listen_cleared os { s with phase := .cleared } hl hf rfl
    have key : listen os s = (let r1 := step os { s with phase := .cleared }; let r2 := step r1.1 r1.2; step r2.1 r2.2) := by
      have h3 := this.1
      dsimp only [listen] at h3 ⊢
      rw [e1]
      generalize step (step (step os { s with phase := .cleared }).1 (step os { s with phase := .cleared }).2).1
        (step (step os { s with phase := .cleared }).1 (step os { s with phase := .cleared }).2).2 = r at h3 ⊢
      obtain ⟨o, t⟩ := r
      subst h3
      rfl
    dsimp only
    rw [key]
    exact this
  · have e1 : step os { s with phase := .entered } = (os, { s with phase := .refused }) := by
      simp only [step, Os.connect, if_neg (Nat.not_le.mpr hl), hf, if_neg hi]
    have e2 : step os { s with phase := .refused } = (os.put s.path none, { s with phase := .cleared }) := by
      simp only [step, Os.unlink, hf]
    have := listen_cleared (os.put s.path none) { s with phase := .cleared } hl (by simp [Os.put]) rfl
    dsimp only [listen] at this ⊢
    rw [e1]; dsimp only; rw [e2]; dsimp only
    refine ⟨this.1, this.2.1, fun q hq => ?_, this.2.2.2⟩
    rw [this.2.2.1 q hq]
    simp [Os.put, hq]

/-- C89: somebody listens on the path: `listen` raises `OSError`, and the files and all other sockets are as before. -/
theorem listen_busy (os : Os) (s : Server) (i : Nat) (hc : os.connect s.path = .ok i) :
    let r := listen os s
    r.2.phase = .raised .osError ∧ r.1.fs = os.fs ∧ ∀ j, j ≠ os.next → s.handle ≠ some j → r.1.socks j = os.socks j := by
  have hl : ¬ 108 ≤ s.path.length := by
    intro h
    rw [Os.connect, if_pos h] at hc
    cases hc
  have hf : (os.fs s.path).isSome := by
    rw [Os.connect, if_neg hl] at hc
    cases h : os.fs s.path with
    | none => rw [h] at hc; cases hc
    | some x => rfl
  have e1 : step os { s with phase := .entered } = (os, { s with phase := .cleared }) := by
    simp only [step, hc]
  have e2 : step os { s with phase := .cleared } = ((os.socket).2.close s.handle, { s with handle := some os.next, phase := .made os.next }) := by
    simp only [step, Os.socket]
  have hf1 : (((os.socket).2.close s.handle).fs s.path).isSome := by
    rw [close_fs]; exact hf
  have e3 : step ((os.socket).2.close s.handle) { s with handle := some os.next, phase := .made os.next } =
      ((os.socket).2.close s.handle, { s with handle := some os.next, phase := .raised .osError }) := by
    simp only [step, Os.bind, if_neg hl, hf1, if_true]
  have e4 : ∀ o, step o { s with handle := some os.next, phase := .raised .osError } = (o, { s with handle := some os.next, phase := .raised .osError }) := fun _ => rfl
  dsimp only [listen]
  rw [e1]; dsimp only; rw [e2]; dsimp only; rw [e3]; dsimp only; rw [e4]; dsimp only; rw [e4]
  refine ⟨rfl, ?_, ?_⟩
  · rw [close_fs]; rfl
  · intro j hj hsj
    rw [close_self hsj]
    simp [Os.socket, Os.set, hj]

/-- C89: a directory is left alone. -/
theorem listen_directory (os : Os) (s : Server) (hl : s.path.length < 108) (hf : os.fs s.path = some .directory) :
    listen os s = (os, { s with phase := .raised .osError }) := by
  have e1 : step os { s with phase := .entered } = (os, { s with phase := .refused }) := by
    simp only [step, Os.connect, if_neg (Nat.not_le.mpr hl), hf]
  have e2 : step os { s with phase := .refused } = (os, { s with phase := .raised .osError }) := by
    simp only [step, Os.unlink, hf]
  have e3 : ∀ o, step o { s with phase := .raised .osError } = (o, { s with phase := .raised .osError }) := fun _ => rfl
  dsimp only [listen]
  rw [e1]; dsimp only; rw [e2]; dsimp only; rw [e3]; dsimp only; rw [e3]; dsimp only; rw [e3]

/-- C89 is false here: every other file at the path is deleted, whatever is in it, because Linux refuses connections to files that are not sockets. -/
theorem file_deleted (os : Os) (s : Server) (content : Bytes) (hl : s.path.length < 108) (hf : os.fs s.path = some (.file content)) :
    (listen os s).2 = { s with handle := some os.next, phase := .returned } ∧ (listen os s).1.fs s.path = some (.socket os.next) ∧
      (listen os s).1.connect s.path = .ok os.next := by
  have e1 : step os { s with phase := .entered } = (os, { s with phase := .refused }) := by
    simp only [step, Os.connect, if_neg (Nat.not_le.mpr hl), hf]
  have e2 : step os { s with phase := .refused } = (os.put s.path none, { s with phase := .cleared }) := by
    simp only [step, Os.unlink, hf]
  have := listen_cleared (os.put s.path none) { s with phase := .cleared } hl (by simp [Os.put]) rfl
  dsimp only [listen] at this ⊢
  rw [e1]; dsimp only; rw [e2]; dsimp only
  refine ⟨this.1, ?_, this.2.1⟩
  have hc := this.2.1
  rw [Os.connect, if_neg (Nat.not_le.mpr hl)] at hc
  split at hc
  · cases hc
  · rename_i i hi
    split at hc
    · injection hc with hc
      rw [hi, hc]; rfl
    · cases hc
  · cases hc

/-- C89 is false here: a path that is too long gives a `ValueError` that does not tell it. -/
theorem path_too_long (os : Os) (s : Server) (hl : 108 ≤ s.path.length) : listen os s = (os, { s with phase := .raised .valueError }) := by
  have e1 : step os { s with phase := .entered } = (os, { s with phase := .raised .valueError }) := by
    simp only [step, Os.connect, if_pos hl]
  have e3 : ∀ o, step o { s with phase := .raised .valueError } = (o, { s with phase := .raised .valueError }) := fun _ => rfl
  dsimp only [listen]
  rw [e1]; dsimp only; rw [e3]; dsimp only; rw [e3]; dsimp only; rw [e3]; dsimp only; rw [e3]

/-- C89 is false here: a second `listen` of a server that listens raises, and from then on nobody gets to the server. -/
theorem listen_twice (os : Os) (s : Server) (i : Nat) (hh : s.handle = some i) (hc : os.connect s.path = .ok i) :
    (listen os s).2.phase = .raised .osError ∧ (listen os s).1.connect s.path = .refused := by
  have hl : ¬ 108 ≤ s.path.length := by
    intro h
    rw [Os.connect, if_pos h] at hc
    cases hc
  have hf : os.fs s.path = some (.socket i) := by
    rw [Os.connect, if_neg hl] at hc
    cases h : os.fs s.path with
    | none => rw [h] at hc; cases hc
    | some x =>
      rw [h] at hc
      cases x with
      | socket j =>
        dsimp only at hc
        split at hc
        · injection hc with hc; rw [hc]
        · cases hc
      | directory => cases hc
      | file c => cases hc
  obtain ⟨h1, h2, -⟩ := listen_busy os s i hc
  refine ⟨h1, ?_⟩
  have e1 : step os { s with phase := .entered } = (os, { s with phase := .cleared }) := by
    simp only [step, hc]
  have e2 : step os { s with phase := .cleared } = ((os.socket).2.close s.handle, { s with handle := some os.next, phase := .made os.next }) := by
    simp only [step, Os.socket]
  have hf1 : (((os.socket).2.close s.handle).fs s.path).isSome := by
    rw [close_fs, show (os.socket).2.fs = os.fs from rfl, hf]; rfl
  have e3 : step ((os.socket).2.close s.handle) { s with handle := some os.next, phase := .made os.next } =
      ((os.socket).2.close s.handle, { s with handle := some os.next, phase := .raised .osError }) := by
    simp only [step, Os.bind, if_neg hl, hf1, if_true]
  have e4 : ∀ o, step o { s with handle := some os.next, phase := .raised .osError } = (o, { s with handle := some os.next, phase := .raised .osError }) := fun _ => rfl
  dsimp only [listen]
  rw [e1]; dsimp only; rw [e2]; dsimp only; rw [e3]; dsimp only; rw [e4]; dsimp only; rw [e4]
  simp only [Os.connect, if_neg hl]
  rw [close_fs, show (os.socket).2.fs = os.fs from rfl, hf, hh]
  simp [Os.close, Os.set]

/-! ### Any number of servers -/

/-- What holds in all histories -/
structure Sound (w : World) : Prop where
  old : ∀ n i, (w.servers n).handle = some i → i < w.os.next
  own : ∀ n m i, (w.servers n).handle = some i → (w.servers m).handle = some i → n = m
  made : ∀ n i, (w.servers n).phase = .made i → (w.servers n).handle = some i
  bound : ∀ n i, (w.servers n).phase = .bound i → (w.servers n).handle = some i
  files : ∀ p i, w.os.fs p = some (.socket i) → i < w.os.next

theorem Start.sound {w : World} (h : Start w) : Sound w where
  old n i e := by rw [(h.idle n).1] at e; cases e
  own n m i e := by rw [(h.idle n).1] at e; cases e
  made n i e := by rw [(h.idle n).2] at e; cases e
  bound n i e := by rw [(h.idle n).2] at e; cases e
  files := h.old

/-- A server that keeps its socket, with files that are kept or whose sockets are old -/
theorem Sound.same {w : World} (h : Sound w) (n : Nat) (os : Os) (s : Server) (hn : os.next = w.os.next) (hh : ∀ i, s.handle = some i → (w.servers n).handle = some i)
    (hm : ∀ i, s.phase = .made i → s.handle = some i) (hb : ∀ i, s.phase = .bound i → s.handle = some i)
    (hf : ∀ p i, os.fs p = some (.socket i) → i < w.os.next) : Sound (w.with n (os, s)) where
  old m i e := by
    simp only [World.with] at e ⊢
    rw [hn]
    split at e
    · exact h.old _ _ (hh i e)
    · exact h.old _ _ e
  own m k i e e' := by
    simp only [World.with] at e e'
    have hx : (w.servers m).handle = some i := by
      split at e
      · rename_i h'; rw [h']; exact hh i e
      · exact e
    have hy : (w.servers k).handle = some i := by
      split at e'
      · rename_i h'; rw [h']; exact hh i e'
      · exact e'
    exact h.own _ _ _ hx hy
  made m i e := by
    simp only [World.with] at e ⊢
    split at e
    · rename_i h'; rw [if_pos h']; exact hm i e
    · rename_i h'; rw [if_neg h']; exact h.made _ _ e
  bound m i e := by
    simp only [World.with] at e ⊢
    split at e
    · rename_i h'; rw [if_pos h']; exact hb i e
    · rename_i h'; rw [if_neg h']; exact h.bound _ _ e
  files p i e := by
    simp only [World.with] at e ⊢
    rw [hn]
    exact hf p i e

theorem step_sound {w : World} (h : Sound w) (n : Nat) : Sound (w.with n (step w.os (w.servers n))) := by
  have keep : ∀ ph : Phase, (∀ i, ph ≠ .made i) → (∀ i, ph ≠ .bound i) → ∀ os : Os, os.next = w.os.next → (∀ p i, os.fs p = some (.socket i) → i < w.os.next) →
      Sound (w.with n (os, { w.servers n with phase := ph })) := fun ph h1 h2 os hn hf =>
    h.same n os _ hn (fun i e => e) (fun i e => absurd e (h1 i)) (fun i e => absurd e (h2 i)) hf
  unfold step
  split
  · split
    · exact keep _ (by simp) (by simp) _ rfl h.files
    · exact keep _ (by simp) (by simp) _ rfl h.files
    · exact keep _ (by simp) (by simp) _ rfl h.files
    · exact keep _ (by simp) (by simp) _ rfl h.files
  · split
    · exact keep _ (by simp) (by simp) _ rfl h.files
    · rename_i os' hu
      have : os' = w.os.put (w.servers n).path none := by
        unfold Os.unlink at hu
        split at hu
        · cases hu
        · cases hu
        · injection hu with hu; exact hu.symm
      subst this
      refine keep _ (by simp) (by simp) _ rfl ?_
      intro p i e
      simp only [Os.put] at e
      split at e
      · cases e
      · exact h.files _ _ e
  · rename_i hp
    have hlt : ∀ m i, (w.servers m).handle = some i → i < w.os.next := h.old
    refine ⟨?_, ?_, ?_, ?_, ?_⟩
    · intro m i e
      have : ((w.os.socket).2.close (w.servers n).handle).next = w.os.next + 1 := by
        cases (w.servers n).handle <;> rfl
      simp only [World.with] at e ⊢
      rw [this]
      split at e
      · injection e with e; simp only [Os.socket] at e; omega
      · have := hlt _ _ e; omega
    · intro m k i e e'
      simp only [World.with] at e e'
      split at e
      · injection e with e
        split at e'
        · omega
        · have := hlt _ _ e'
          simp only [Os.socket] at e; omega
      · split at e'
        · injection e' with e'
          have := hlt _ _ e
          simp only [Os.socket] at e'; omega
        · exact h.own _ _ _ e e'
    · intro m i e
      simp only [World.with] at e ⊢
      split at e
      · rename_i h'; rw [if_pos h']; injection e with e; rw [← e]
      · rename_i h'; rw [if_neg h']; exact h.made _ _ e
    · intro m i e
      simp only [World.with] at e ⊢
      split at e
      · cases e
      · rename_i h'; rw [if_neg h']; exact h.bound _ _ e
    · intro p i e
      have hn : ((w.os.socket).2.close (w.servers n).handle).next = w.os.next + 1 := by
        cases (w.servers n).handle <;> rfl
      simp only [World.with] at e ⊢
      rw [hn]
      rw [close_fs] at e
      have := h.files p i e
      omega
  · rename_i i hp
    split
    · exact keep _ (by simp) (by simp) _ rfl h.files
    · rename_i os' hu
      have : os' = (w.os.put (w.servers n).path (some (.socket i))).set i .bound := by
        unfold Os.bind at hu
        split at hu
        · cases hu
        · split at hu
          · cases hu
          · injection hu with hu; exact hu.symm
      subst this
      refine h.same n _ _ rfl (fun j e => e) (fun j e => by cases e) (fun j e => ?_) ?_
      · injection e with e; subst e; exact h.made _ _ hp
      · intro p j e
        simp only [Os.put, Os.set] at e
        split at e
        · injection e with e; injection e with e; subst e; exact h.old _ _ (h.made _ _ hp)
        · exact h.files _ _ e
  · exact keep _ (by simp) (by simp) _ rfl h.files
  · exact h.same n _ _ rfl (fun i e => e) (fun i => h.made n i) (fun i => h.bound n i) h.files
  · exact h.same n _ _ rfl (fun i e => e) (fun i => h.made n i) (fun i => h.bound n i) h.files
  · exact h.same n _ _ rfl (fun i e => e) (fun i => h.made n i) (fun i => h.bound n i) h.files

theorem act_sound {w : World} (h : Sound w) (a : Act) : Sound (act w a) := by
  cases a with
  | call n =>
    unfold act
    dsimp only
    split
    · exact h
    · exact h.same n _ _ rfl (fun i e => e) (fun i e => by cases e) (fun i e => by cases e) h.files
  | step n => exact step_sound h n
  | close n =>
    refine h.same n _ _ ?_ (fun i e => by cases e) (fun i e => by cases e) (fun i e => by cases e) ?_
    · cases (w.servers n).handle <;> rfl
    · intro p i e
      rw [close_fs] at e
      exact h.files _ _ e
  | create p x =>
    unfold act
    dsimp only
    split
    · exact h
    · split
      · exact h
      · rename_i hx _
        refine ⟨h.old, h.own, h.made, h.bound, ?_⟩
        intro q i e
        simp only [Os.put] at e
        split at e
        · injection e with e; exact absurd e (hx i)
        · exact h.files _ _ e
  | remove p =>
    refine ⟨h.old, h.own, h.made, h.bound, ?_⟩
    intro q i e
    simp only [act, Os.put] at e
    split at e
    · cases e
    · exact h.files _ _ e

theorem run_sound {w : World} (h : Sound w) (as : List Act) : Sound (run w as) := by
  induction as generalizing w with
  | nil => exact h
  | cons a as ih => exact ih (act_sound h a)

theorem connect_ok {os : Os} {p : Path} {i : Nat} : os.connect p = .ok i ↔ p.length < 108 ∧ os.fs p = some (.socket i) ∧ os.socks i = .listening := by
  unfold Os.connect
  constructor
  · intro h
    split at h
    · cases h
    · rename_i hl
      refine ⟨by omega, ?_⟩
      split at h
      · cases h
      · rename_i j hj
        split at h
        · rename_i hs
          injection h with h
          subst h
          exact ⟨hj, hs⟩
        · cases h
      · cases h
  · rintro ⟨h1, h2, h3⟩
    rw [if_neg (by omega), h2]
    exact if_pos h3

/-- Server `a` listens with socket `i`, and no other server is about to remove the file. -/
structure Holds (w : World) (a : Nat) (p : Path) (i : Nat) : Prop where
  sound : Sound w
  phase : (w.servers a).phase = .returned
  handle : (w.servers a).handle = some i
  conn : w.os.connect p = .ok i
  others : ∀ n, n ≠ a → (w.servers n).path = p → (w.servers n).phase ≠ .refused

theorem step_path (os : Os) (s : Server) : (step os s).2.path = s.path := by
  unfold step
  split <;> (try split) <;> rfl

/-- A step of another server on a path where somebody listens: the file and the socket stay, and the server is not about to remove the file or to listen. -/
theorem step_keeps {w : World} {a : Nat} {p : Path} {i : Nat} (h : Holds w a p i) {n : Nat} (hn : n ≠ a) :
    (step w.os (w.servers n)).1.connect p = .ok i ∧
      ((w.servers n).path = p → (step w.os (w.servers n)).2.phase ≠ .refused ∧
        ((w.servers n).phase ≠ .returned → (∀ j, (w.servers n).phase ≠ .bound j) →
          (step w.os (w.servers n)).2.phase ≠ .returned ∧ ∀ j, (step w.os (w.servers n)).2.phase ≠ .bound j)) := by
  obtain ⟨hl, hf, hs⟩ := connect_ok.mp h.conn
  have hi : i < w.os.next := h.sound.old _ _ h.handle
  have hne : (w.servers n).handle ≠ some i := fun e => hn (h.sound.own _ _ _ e h.handle)
  unfold step
  split
  · split
    · exact ⟨h.conn, fun _ => ⟨by simp, fun _ _ => by simp⟩⟩
    · rename_i hr
      refine ⟨h.conn, fun e => ?_⟩
      rw [e, h.conn] at hr
      cases hr
    · exact ⟨h.conn, fun _ => ⟨by simp, fun _ _ => by simp⟩⟩
    · exact ⟨h.conn, fun _ => ⟨by simp, fun _ _ => by simp⟩⟩
  · rename_i hp
    have hq : (w.servers n).path ≠ p := fun e => h.others n hn e hp
    split
    · exact ⟨h.conn, fun e => absurd e hq⟩
    · rename_i os' hu
      refine ⟨?_, fun e => absurd e hq⟩
      have : os' = w.os.put (w.servers n).path none := by
        unfold Os.unlink at hu
        split at hu
        · cases hu
        · cases hu
        · injection hu with hu; exact hu.symm
      subst this
      refine connect_ok.mpr ⟨hl, ?_, hs⟩
      simp only [Os.put]
      rw [if_neg (fun e => hq e.symm)]
      exact hf
  · refine ⟨connect_ok.mpr ⟨hl, ?_, ?_⟩, fun _ => ⟨by simp, fun _ _ => by simp⟩⟩
    · dsimp only
      rw [close_fs]
      exact hf
    · dsimp only
      rw [close_self hne]
      simp only [Os.socket, Os.set]
      rw [if_neg (by omega)]
      exact hs
  · rename_i j hp
    split
    · exact ⟨h.conn, fun _ => ⟨by simp, fun _ _ => by simp⟩⟩
    · rename_i os' hu
      have hij : i ≠ j := fun e => hne (e ▸ h.sound.made _ _ hp)
      unfold Os.bind at hu
      split at hu
      · cases hu
      · split at hu
        · cases hu
        · rename_i hsome
          injection hu with hu
          have hq : (w.servers n).path ≠ p := by
            intro e
            rw [e, hf] at hsome
            exact hsome rfl
          refine ⟨?_, fun e => absurd e hq⟩
          subst hu
          refine connect_ok.mpr ⟨hl, ?_, ?_⟩
          · simp only [Os.put, Os.set]
            rw [if_neg (fun e => hq e.symm)]
            exact hf
          · simp only [Os.put, Os.set]
            rw [if_neg hij]
            exact hs
  · rename_i j hp
    have hij : i ≠ j := fun e => hne (e ▸ h.sound.bound _ _ hp)
    refine ⟨connect_ok.mpr ⟨hl, hf, ?_⟩, fun _ => ⟨by simp, fun _ hb => absurd hp (hb j)⟩⟩
    simp only [Os.set]
    rw [if_neg hij]
    exact hs
  · rename_i hp
    exact ⟨h.conn, fun _ => ⟨by rw [hp]; simp, fun h1 h2 => ⟨h1, h2⟩⟩⟩
  · rename_i e hp
    exact ⟨h.conn, fun _ => ⟨by rw [hp]; simp, fun h1 h2 => ⟨h1, h2⟩⟩⟩
  · rename_i hp
    exact ⟨h.conn, fun _ => ⟨by rw [hp]; simp, fun h1 h2 => ⟨h1, h2⟩⟩⟩

/-- Another server is changed. -/
theorem Holds.other {w : World} {a : Nat} {p : Path} {i : Nat} (h : Holds w a p i) {n : Nat} (hn : n ≠ a) (os : Os) (s : Server) (hs : Sound (w.with n (os, s)))
    (hc : os.connect p = .ok i) (hr : s.path = p → s.phase ≠ .refused) : Holds (w.with n (os, s)) a p i where
  sound := hs
  phase := by simp only [World.with]; rw [if_neg (Ne.symm hn)]; exact h.phase
  handle := by simp only [World.with]; rw [if_neg (Ne.symm hn)]; exact h.handle
  conn := hc
  others m hm e := by
    simp only [World.with] at e ⊢
    split at e
    · rename_i h'; rw [if_pos h']; exact hr e
    · rename_i h'; rw [if_neg h']; exact h.others m hm e

/-- Nobody but `a` listens on the path or is about to. -/
def Alone (w : World) (a : Nat) (p : Path) : Prop :=
  ∀ n, n ≠ a → (w.servers n).path = p → (w.servers n).phase ≠ .returned ∧ ∀ j, (w.servers n).phase ≠ .bound j

theorem Alone.other {w : World} {a : Nat} {p : Path} (h : Alone w a p) (n : Nat) (os : Os) (s : Server) (hs : n ≠ a → s.path = p → s.phase ≠ .returned ∧ ∀ j, s.phase ≠ .bound j) :
    Alone (w.with n (os, s)) a p := by
  intro m hm e
  simp only [World.with] at e ⊢
  split at e
  · rename_i h'; rw [if_pos h']; exact hs (h' ▸ hm) e
  · rename_i h'; rw [if_neg h']; exact h m hm e

theorem act_keeps {w : World} {a : Nat} {p : Path} {i : Nat} (h : Holds w a p i) (x : Act) (h1 : x ≠ .close a) (h2 : x ≠ .call a) (h3 : x ≠ .remove p) :
    Holds (act w x) a p i ∧ (Alone w a p → Alone (act w x) a p) := by
  have hs := act_sound h.sound x
  obtain ⟨hl, hf, hsk⟩ := connect_ok.mp h.conn
  cases x with
  | call n =>
    have hn : n ≠ a := fun e => h2 (by rw [e])
    unfold act at hs ⊢
    dsimp only at hs ⊢
    split
    · exact ⟨h, id⟩
    · rename_i hb
      rw [if_neg hb] at hs
      exact ⟨h.other hn _ _ hs h.conn (fun _ => by simp), fun hA => hA.other n _ _ fun _ _ => by simp⟩
  | step n =>
    by_cases hn : n = a
    · subst hn
      have : act w (.step n) = w := by
        unfold act
        dsimp only
        have e : step w.os (w.servers n) = (w.os, w.servers n) := by
          unfold step
          rw [h.phase]
        rw [e]
        unfold World.with
        cases w with
        | mk os sv =>
          congr 1
          funext m
          split
          · rename_i hm; rw [hm]
          · rfl
      rw [this]
      exact ⟨h, id⟩
    · obtain ⟨k1, k2⟩ := step_keeps h hn
      refine ⟨h.other hn _ _ hs k1 (fun e => (k2 ((step_path _ _).symm.trans e)).1), fun hA => hA.other n _ _ fun _ e' => ?_⟩
      have e : (w.servers n).path = p := (step_path w.os _).symm.trans e'
      exact (k2 e).2 (hA n hn e).1 (hA n hn e).2
  | close n =>
    have hn : n ≠ a := fun e => h1 (by rw [e])
    have hne : (w.servers n).handle ≠ some i := fun e => hn (h.sound.own _ _ _ e h.handle)
    refine ⟨h.other hn _ _ hs (connect_ok.mpr ⟨hl, ?_, ?_⟩) (fun _ => by simp), fun hA => hA.other n _ _ fun _ _ => by simp⟩
    · rw [close_fs]; exact hf
    · rw [close_self hne]; exact hsk
  | create q x =>
    unfold act at hs ⊢
    dsimp only at hs ⊢
    split
    · exact ⟨h, id⟩
    · split
      · exact ⟨h, id⟩
      · rename_i hx hq
        have hqp : p ≠ q := by
          intro e
          rw [← e, hf] at hq
          exact hq rfl
        simp only [if_neg hq] at hs
        refine ⟨⟨?_, h.phase, h.handle, connect_ok.mpr ⟨hl, ?_, hsk⟩, h.others⟩, id⟩
        · cases x with
          | socket j => exact absurd rfl (hx j)
          | directory => exact hs
          | file c => exact hs
        · simp only [Os.put]
          rw [if_neg hqp]
          exact hf
  | remove q =>
    have hqp : p ≠ q := fun e => h3 (by rw [e])
    refine ⟨⟨hs, h.phase, h.handle, connect_ok.mpr ⟨hl, ?_, hsk⟩, h.others⟩, id⟩
    simp only [act, Os.put]
    rw [if_neg hqp]
    exact hf

theorem run_keeps {w : World} {a : Nat} {p : Path} {i : Nat} (h : Holds w a p i) (as : List Act) (hs : Spares as a p) :
    Holds (run w as) a p i ∧ (Alone w a p → Alone (run w as) a p) := by
  induction as generalizing w with
  | nil => exact ⟨h, id⟩
  | cons x as ih =>
    obtain ⟨s1, s2, s3⟩ := hs
    simp only [List.mem_cons, not_or] at s1 s2 s3
    obtain ⟨k1, k2⟩ := act_keeps h x (Ne.symm s1.1) (Ne.symm s2.1) (Ne.symm s3.1)
    obtain ⟨k3, k4⟩ := ih k1 ⟨s1.2, s2.2, s3.2⟩
    exact ⟨k3, fun hA => k4 (k2 hA)⟩

/-- C89: once clients get to a server, they do so until it ends, whatever the other servers and programs do, unless a server was about to remove the file already. -/
theorem keeps_listening {w₀ : World} (h₀ : Start w₀) (before after : List Act) (a : Nat) (p : Path) (hr : Listens (run w₀ before) a) (hc : Reaches (run w₀ before) p a)
    (hn : ∀ n, n ≠ a → ((run w₀ before).servers n).path = p → ¬ Removing (run w₀ before) n) (hs : Spares after a p) : Reaches (run w₀ (before ++ after)) p a := by
  obtain ⟨i, h1, h2⟩ := hc
  have h : Holds (run w₀ before) a p i := ⟨run_sound (Start.sound h₀) before, hr, h2, h1, hn⟩
  have := (run_keeps h after hs).1
  unfold run at this ⊢
  rw [List.foldl_append]
  exact ⟨i, this.conn, this.handle⟩

/-- C89: and all calls of `listen` of other servers on the path that begin then, or have not got the path yet, fail. -/
theorem others_fail {w₀ : World} (h₀ : Start w₀) (before after : List Act) (a : Nat) (p : Path) (hr : Listens (run w₀ before) a) (hc : Reaches (run w₀ before) p a)
    (hn : ∀ n, n ≠ a → ((run w₀ before).servers n).path = p →
      ¬ Removing (run w₀ before) n ∧ ¬ Listens (run w₀ before) n ∧ ∀ j, ((run w₀ before).servers n).phase ≠ .bound j) (hs : Spares after a p) :
    ∀ n, n ≠ a → ((run w₀ before).servers n).path = p → ¬ Listens (run w₀ (before ++ after)) n := by
  obtain ⟨i, h1, h2⟩ := hc
  have h : Holds (run w₀ before) a p i := ⟨run_sound (Start.sound h₀) before, hr, h2, h1, fun n x y => (hn n x y).1⟩
  have hA : Alone (run w₀ before) a p := fun n x y => (hn n x y).2
  have := (run_keeps h after hs).2 hA
  intro n hna hp
  have hpath : ∀ (as : List Act) (w : World), ((run w as).servers n).path = (w.servers n).path := by
    intro as
    induction as with
    | nil => intro w; rfl
    | cons x as ih =>
      intro w
      rw [show run w (x :: as) = run (act w x) as from rfl, ih]
      cases x with
      | call m =>
        unfold act; dsimp only
        split
        · rfl
        · simp only [World.with]; split
          · rename_i e; rw [e]
          · rfl
      | step m =>
        simp only [act, World.with]; split
        · rename_i e; rw [e, step_path]
        · rfl
      | close m =>
        simp only [act, World.with, close]; split
        · rename_i e; rw [e]
        · rfl
      | create q x =>
        unfold act; dsimp only
        split
        · rfl
        · split <;> rfl
      | remove q => rfl
  unfold run at this ⊢
  rw [List.foldl_append]
  exact (this n hna (by rw [show List.foldl act (List.foldl act w₀ before) after = run (run w₀ before) after from rfl, hpath]; exact hp)).1

/-! ### Calls that do not overlap -/

/-- If `listen` returns, clients get to the server. -/
theorem listen_returned (os : Os) (s : Server) (h : (listen os s).2.phase = .returned) :
    ∃ i, (listen os s).2.handle = some i ∧ (listen os s).1.connect s.path = .ok i := by
  by_cases hl : 108 ≤ s.path.length
  · rw [path_too_long os s hl] at h
    cases h
  · have hl' : s.path.length < 108 := by omega
    cases hf : os.fs s.path with
    | none =>
      have := listen_takes os s hl' (.inl hf)
      exact ⟨os.next, by rw [this.1], this.2.1⟩
    | some x =>
      cases x with
      | socket i =>
        by_cases hs : os.socks i = .listening
        · rw [(listen_busy os s i (connect_ok.mpr ⟨hl', hf, hs⟩)).1] at h
          cases h
        · have := listen_takes os s hl' (.inr ⟨i, hf, hs⟩)
          exact ⟨os.next, by rw [this.1], this.2.1⟩
      | directory =>
        rw [listen_directory os s hl' hf] at h
        cases h
      | file c =>
        have := file_deleted os s c hl' hf
        exact ⟨os.next, by rw [this.1], this.2.2⟩

/-- Five steps are enough. -/
theorem listen_done (os : Os) (s : Server) : (listen os s).2.phase.busy = false := by
  by_cases hl : 108 ≤ s.path.length
  · rw [path_too_long os s hl]; rfl
  · have hl' : s.path.length < 108 := by omega
    cases hf : os.fs s.path with
    | none => rw [(listen_takes os s hl' (.inl hf)).1]; rfl
    | some x =>
      cases x with
      | socket i =>
        by_cases hs : os.socks i = .listening
        · rw [(listen_busy os s i (connect_ok.mpr ⟨hl', hf, hs⟩)).1]; rfl
        · rw [(listen_takes os s hl' (.inr ⟨i, hf, hs⟩)).1]; rfl
      | directory => rw [listen_directory os s hl' hf]; rfl
      | file c => rw [(file_deleted os s c hl' hf).1]; rfl

theorem with_with (w : World) (n : Nat) (r r' : Os × Server) : (w.with n r).with n r' = w.with n r' := by
  unfold World.with
  congr 1
  funext m
  split
  · rfl
  · rename_i h; exact if_neg h

theorem with_self (w : World) (n : Nat) (r : Os × Server) : (w.with n r).servers n = r.2 := by
  simp [World.with]

/-- `listen` as events of a history -/
theorem listen_run (w : World) (n : Nat) (h : (w.servers n).phase.busy = false) :
    run w [.call n, .step n, .step n, .step n, .step n, .step n] = w.with n (listen w.os (w.servers n)) := by
  simp only [run, List.foldl, act, h, Bool.false_eq_true, if_false, with_with, with_self, listen]
  rfl

/-- Events that do not overlap -/
inductive Event where
  | listen (n : Nat)
  | close (n : Nat)
  | create (p : Path) (x : Node)

/-- The steps of an event -/
def Event.acts : Event → List Act
  | .listen n => [.call n, .step n, .step n, .step n, .step n, .step n]
  | .close n => [.close n]
  | .create p x => [.create p x]

/-- C89: if calls of `listen` do not overlap, then clients get to every server whose `listen` returned, until it is closed or calls `listen` again; in particular, no two servers listen on one
path. -/
theorem whole_reaches {w₀ : World} (h₀ : Start w₀) (es : List Event) (n : Nat) (hn : Listens (run w₀ (es.flatMap Event.acts)) n) :
    Reaches (run w₀ (es.flatMap Event.acts)) ((run w₀ (es.flatMap Event.acts)).servers n).path n := by
  have key : ∀ (es : List Event) (w : World), Sound w → (∀ n, (w.servers n).phase.busy = false) → (∀ n, Listens w n → Reaches w (w.servers n).path n) →
      ∀ n, Listens (run w (es.flatMap Event.acts)) n → Reaches (run w (es.flatMap Event.acts)) ((run w (es.flatMap Event.acts)).servers n).path n := by
    intro es
    induction es with
    | nil => intro w _ _ h; exact h
    | cons e es ih =>
      intro w hs hb hr
      have e0 : run w ((e :: es).flatMap Event.acts) = run (run w e.acts) (es.flatMap Event.acts) := by
        unfold run
        rw [List.flatMap_cons, List.foldl_append]
      rw [e0]
      have keep : ∀ n, Listens w n → Spares e.acts n (w.servers n).path → Reaches (run w e.acts) (w.servers n).path n := by
        intro n hn hsp
        obtain ⟨i, h1, h2⟩ := hr n hn
        have := (run_keeps (a := n) (p := (w.servers n).path) (i := i) ⟨hs, hn, h2, h1, fun m _ _ hm => by have := hb m; rw [hm] at this; cases this⟩ e.acts hsp).1
        exact ⟨i, this.conn, this.handle⟩
      refine ih _ (run_sound hs _) ?_ ?_
      · intro n
        cases e with
        | listen m =>
          rw [Event.acts, listen_run w m (hb m)]
          simp only [World.with]
          split
          · exact listen_done _ _
          · exact hb n
        | close m =>
          simp only [Event.acts, run, List.foldl, act, World.with]
          split
          · rfl
          · exact hb n
        | create p x =>
          simp only [Event.acts, run, List.foldl, act]
          split
          · exact hb n
          · split <;> exact hb n
      · intro n hn
        cases e with
        | listen m =>
          by_cases hnm : n = m
          · subst hnm
            rw [Event.acts, listen_run w n (hb n)] at hn ⊢
            unfold Listens at hn
            rw [with_self] at hn ⊢
            obtain ⟨i, h1, h2⟩ := listen_returned _ _ hn
            have hp : (listen w.os (w.servers n)).2.path = (w.servers n).path := by
              simp only [listen, step_path]
            exact ⟨i, by rw [hp]; exact h2, by rw [with_self]; exact h1⟩
          · have e1 : (run w (Event.listen m).acts).servers n = w.servers n := by
              rw [Event.acts, listen_run w m (hb m)]
              simp [World.with, hnm]
            unfold Listens at hn
            rw [e1] at hn ⊢
            exact keep n hn ⟨by simp [Event.acts], by simp [Event.acts, hnm], by simp [Event.acts]⟩
        | close m =>
          by_cases hnm : n = m
          · subst hnm
            simp only [Listens, Event.acts, run, List.foldl, act, with_self, close] at hn
            cases hn
          · have e1 : (run w (Event.close m).acts).servers n = w.servers n := by
              simp [Event.acts, run, act, World.with, hnm]
            unfold Listens at hn
            rw [e1] at hn ⊢
            exact keep n hn ⟨by simp [Event.acts, hnm], by simp [Event.acts], by simp [Event.acts]⟩
        | create p x =>
          have e1 : (run w (Event.create p x).acts).servers n = w.servers n := by
            simp only [Event.acts, run, List.foldl, act]
            split
            · rfl
            · split <;> rfl
          unfold Listens at hn
          rw [e1] at hn ⊢
          exact keep n hn ⟨by simp [Event.acts], by simp [Event.acts], by simp [Event.acts]⟩
  exact key es w₀ (Start.sound h₀) (fun n => by rw [(h₀.idle n).2]; rfl) (fun n h => by unfold Listens at h; rw [(h₀.idle n).2] at h; cases h) n hn

/-- C89: so at most one of the servers on a path listens. -/
theorem whole_one {w₀ : World} (h₀ : Start w₀) (es : List Event) (n m : Nat) (hn : Listens (run w₀ (es.flatMap Event.acts)) n) (hm : Listens (run w₀ (es.flatMap Event.acts)) m)
    (hp : ((run w₀ (es.flatMap Event.acts)).servers n).path = ((run w₀ (es.flatMap Event.acts)).servers m).path) : n = m := by
  obtain ⟨i, h1, h2⟩ := whole_reaches h₀ es n hn
  obtain ⟨j, h3, h4⟩ := whole_reaches h₀ es m hm
  rw [hp, h3] at h1
  injection h1 with h1
  subst h1
  exact (run_sound (Start.sound h₀) _).own _ _ _ h2 h4

/-! ### Two servers at once -/

/-- Nothing there, two servers on the same path -/
def empty (p : Path) : World := { os := { fs := fun _ => none, socks := fun _ => .closed, next := 0 }, servers := fun _ => { path := p } }

theorem empty_start (p : Path) : Start (empty p) where
  idle _ := ⟨rfl, rfl⟩
  closed _ := rfl
  old _ _ h := by cases h

/-- Server 1 looks at the path between `bind` and `listen` of server 0. -/
def race : List Act := [.call 0, .step 0, .step 0, .step 0, .call 1, .step 1, .step 0, .step 1, .step 1, .step 1, .step 1]

/-- C89 is false here: both servers listen on the path, and clients get to the second one only. -/
theorem two_servers (p : Path) (hp : p.length < 108) :
    Listens (run (empty p) race) 0 ∧ Listens (run (empty p) race) 1 ∧ Reaches (run (empty p) race) p 1 ∧ ¬ Reaches (run (empty p) race) p 0 := by
  have hl : ¬ 108 ≤ p.length := by omega
  refine ⟨?_, ?_, ?_, ?_⟩
  · simp [Listens, run, race, act, World.with, step, Os.connect, Os.unlink, Os.put, Os.bind, Os.set, Os.socket, Os.close, empty, Phase.busy, hl]
  · simp [Listens, run, race, act, World.with, step, Os.connect, Os.unlink, Os.put, Os.bind, Os.set, Os.socket, Os.close, empty, Phase.busy, hl]
  · simp [Reaches, run, race, act, World.with, step, Os.connect, Os.unlink, Os.put, Os.bind, Os.set, Os.socket, Os.close, empty, Phase.busy, hl]
  · simp [Reaches, run, race, act, World.with, step, Os.connect, Os.unlink, Os.put, Os.bind, Os.set, Os.socket, Os.close, empty, Phase.busy, hl]

/-- A file that somebody needs, and a server that is given its path by mistake -/
example : (listen { fs := fun q => if q = [1] then some (.file [7, 7, 7]) else none, socks := fun _ => .closed, next := 0 } { path := [1] }).1.fs [1] = some (.socket 0) :=
  (file_deleted _ _ [7, 7, 7] (by decide) rfl).2.1

/-- The socket file of a server that has crashed, and one of a server that is there -/
example : ((listen { fs := fun q => if q = [1] then some (.socket 0) else none, socks := fun _ => .closed, next := 1 } { path := [1] }).1.connect [1]) = .ok 1 :=
  (listen_takes _ _ (by decide) (.inr ⟨0, rfl, by decide⟩)).2.1

example : (listen { fs := fun q => if q = [1] then some (.socket 0) else none, socks := fun _ => .listening, next := 1 } { path := [1] }).2.phase = .raised .osError :=
  (listen_busy _ _ 0 (by decide)).1

example : (listen { fs := fun q => if q = [1] then some (.socket 0) else none, socks := fun _ => .listening, next := 1 } { path := [1], handle := some 0 }).1.connect [1] = .refused :=
  (listen_twice _ _ 0 rfl (by decide)).2

example : (listen { fs := fun q => if q = [1] then some .directory else none, socks := fun _ => .closed, next := 1 } { path := [1] }).2.phase = .raised .osError := by
  rw [listen_directory _ _ (by decide) rfl]

/-- A server is replaced by another one after it has ended. -/
example (p : Path) (hp : p.length < 108) : Listens (run (empty p) ([Event.listen 0, .close 0, .listen 1].flatMap Event.acts)) 1 := by
  have hl : ¬ 108 ≤ p.length := by omega
  simp [Listens, run, Event.acts, act, close, World.with, step, Os.connect, Os.unlink, Os.put, Os.bind, Os.set, Os.socket, Os.close, empty, Phase.busy, hl]

/-- Server 1 begins when server 0 listens: `keeps_listening` and `others_fail` apply. -/
theorem sample (p : Path) (hp : p.length < 108) :
    Listens (run (empty p) [.call 0, .step 0, .step 0, .step 0, .step 0]) 0 ∧ Reaches (run (empty p) [.call 0, .step 0, .step 0, .step 0, .step 0]) p 0 ∧
      ∀ n, n ≠ 0 → ¬ Removing (run (empty p) [.call 0, .step 0, .step 0, .step 0, .step 0]) n ∧ ¬ Listens (run (empty p) [.call 0, .step 0, .step 0, .step 0, .step 0]) n ∧
        ∀ j, ((run (empty p) [.call 0, .step 0, .step 0, .step 0, .step 0]).servers n).phase ≠ .bound j := by
  have hl : ¬ 108 ≤ p.length := by omega
  refine ⟨?_, ?_, ?_⟩
  · simp [Listens, run, act, World.with, step, Os.connect, Os.put, Os.bind, Os.set, Os.socket, Os.close, empty, Phase.busy, hl]
  · simp [Reaches, run, act, World.with, step, Os.connect, Os.put, Os.bind, Os.set, Os.socket, Os.close, empty, Phase.busy, hl]
  · intro n hn
    simp [Removing, Listens, run, act, World.with, empty, Phase.busy, hn]

example (p : Path) (hp : p.length < 108) (as : List Act) (hs : Spares as 0 p) :
    Reaches (run (empty p) ([.call 0, .step 0, .step 0, .step 0, .step 0] ++ as)) p 0 ∧ ∀ n, n ≠ 0 → ¬ Listens (run (empty p) ([.call 0, .step 0, .step 0, .step 0, .step 0] ++ as)) n :=
  ⟨keeps_listening (empty_start p) _ _ 0 p (sample p hp).1 (sample p hp).2.1 (fun n h _ => ((sample p hp).2.2 n h).1) hs,
    fun n h => others_fail (empty_start p) _ _ 0 p (sample p hp).1 (sample p hp).2.1 (fun n h _ => (sample p hp).2.2 n h) hs n h
      (by simp [run, act, World.with, empty, Phase.busy, h])⟩

/-! ### Internet addresses -/

/-- C89: the address is the first one of the family, and the last one if there is none. -/
theorem choose_spec (want : Family) (a : Addr) (as : List Addr) :
    (∃ l r, a :: as = l ++ choose want a as :: r ∧ (choose want a as).family = want ∧ ∀ x ∈ l, x.family ≠ want) ∨
      ((∀ x ∈ a :: as, x.family ≠ want) ∧ (a :: as).getLast? = some (choose want a as)) := by
  induction as generalizing a with
  | nil =>
    by_cases h : a.family = want
    · exact .inl ⟨[], [], rfl, h, by simp⟩
    · exact .inr ⟨by simpa using h, rfl⟩
  | cons b bs ih =>
    by_cases h : a.family = want
    · exact .inl ⟨[], b :: bs, by simp [choose, h], by simp [choose, h], by simp⟩
    · have e : choose want a (b :: bs) = choose want b bs := by simp [choose, h]
      rw [e]
      rcases ih b with ⟨l, r, h1, h2, h3⟩ | ⟨h1, h2⟩
      · refine .inl ⟨a :: l, r, by rw [h1]; rfl, h2, ?_⟩
        intro x hx
        rcases List.mem_cons.mp hx with rfl | hx
        · exact h
        · exact h3 x hx
      · refine .inr ⟨?_, by rw [List.getLast?_cons_cons]; exact h2⟩
        intro x hx
        rcases List.mem_cons.mp hx with rfl | hx
        · exact h
        · exact h1 x hx

theorem choose_mem (want : Family) (a : Addr) (as : List Addr) : choose want a as ∈ a :: as := by
  rcases choose_spec want a as with ⟨l, r, h, -, -⟩ | ⟨-, h⟩
  · rw [h]; simp
  · exact List.mem_of_getLast? h

/-- C89: the server listens on an address that `bind` took: the first one of the family that was asked for (of IPv6 if none was), and the last one if there is none. -/
theorem listens_where {f : Family} {a : Addr} {as : List Addr} {free : Addr → Bool} {dflt : Bool} {e : Endpoint} (he : listenInet f a as free dflt = .ok e)
    {want : Family} (hw : (f = .unspec ∧ want = .inet6) ∨ (f ≠ .unspec ∧ want = f)) :
    free e.addr = true ∧ ((∃ l r, a :: as = l ++ e.addr :: r ∧ e.addr.family = want ∧ ∀ x ∈ l, x.family ≠ want) ∨
      ((∀ x ∈ a :: as, x.family ≠ want) ∧ (a :: as).getLast? = some e.addr)) := by
  have hp : preferred f = want := by
    unfold preferred
    rcases hw with ⟨h, rfl⟩ | ⟨h, rfl⟩
    · rw [if_pos h]
    · rw [if_neg h]
  unfold listenInet at he
  rw [hp] at he
  dsimp only at he
  split at he
  · rename_i hf
    cases he
    exact ⟨hf, choose_spec want a as⟩
  · cases he

/-- C89: with no host and no family, `getaddrinfo` gives wildcard addresses; if one of them is of IPv6, clients get to the server at all addresses of the machine, of both families. -/
theorem dual_stack (a : Addr) (as : List Addr) (free : Addr → Bool) (dflt : Bool) (e : Endpoint) (hw : ∀ x ∈ a :: as, x.host = none ∧ x.port = a.port)
    (h6 : ∃ x ∈ a :: as, x.family = .inet6) (he : listenInet .unspec a as free dflt = .ok e) (t : Addr) (ht : t.port = a.port) (hf : t.family = .inet ∨ t.family = .inet6) :
    Accepts e t := by
  have hfam : (choose .inet6 a as).family = .inet6 := by
    rcases choose_spec .inet6 a as with ⟨l, r, -, h, -⟩ | ⟨h, -⟩
    · exact h
    · obtain ⟨x, hx, hx6⟩ := h6
      exact absurd hx6 (h x hx)
  obtain ⟨h1, h2⟩ := hw _ (choose_mem .inet6 a as)
  simp only [listenInet, preferred, if_true, hfam] at he
  split at he
  · injection he with he
    subst he
    refine ⟨by rw [h2, ht], ?_⟩
    rcases hf with hf | hf
    · exact .inr ⟨hfam, h1, rfl, hf⟩
    · exact .inl ⟨by rw [hfam, hf], .inr h1⟩
  · cases he

/-- C89: a client that resolves the name to a list with the address of the server gets a connection to the server, if nobody else listens on the addresses. `try_` says what
happens at each address. -/
theorem client_reaches (f : Family) (a : Addr) (as : List Addr) (free : Addr → Bool) (dflt : Bool) (e : Endpoint) (he : listenInet f a as free dflt = .ok e)
    (l : List Addr) (hl : ∀ x ∈ a :: as, x ∈ l) (try_ : Addr → Socket.Attempt) (hacc : ∀ t, Accepts e t → try_ t = .accepted) (href : ∀ t, ¬ Accepts e t → try_ t = .refused) :
    ∃ n t, l[n]? = some t ∧ Accepts e t ∧ (Socket.open_ none (.addrs (l.map try_))).1 = .ok () ∧ (Socket.open_ none (.addrs (l.map try_))).2.1 = some n := by
  have hcases : ∀ t, try_ t = .refused ∨ try_ t = .accepted := by
    intro t
    by_cases h : Accepts e t
    · exact .inr (hacc t h)
    · exact .inl (href t h)
  have hself : Accepts e (choose (preferred f) a as) := by
    simp only [listenInet] at he
    split at he
    · injection he with he
      subst he
      exact ⟨rfl, .inl ⟨rfl, .inl rfl⟩⟩
    · cases he
  have := Socket.socket_open (l.map try_) (by
    intro x hx
    obtain ⟨t, -, rfl⟩ := List.mem_map.mp hx
    exact hcases t)
  dsimp only at this
  rcases this with ⟨n, h1, -, h3, h4, -⟩ | ⟨h1, -⟩
  · rw [List.getElem?_map] at h1
    obtain ⟨t, ht, hta⟩ := Option.map_eq_some_iff.mp h1
    refine ⟨n, t, ht, ?_, h3, h4⟩
    refine Classical.byContradiction fun hn => ?_
    rw [href t hn] at hta
    cases hta
  · have := h1 (try_ (choose (preferred f) a as)) (List.mem_map_of_mem (hl _ (choose_mem _ _ _)))
    rw [hacc _ hself] at this
    cases this

/-- IPv4 was asked for. -/
example : (⟨⟨.inet, none, 9090⟩, true⟩ : Endpoint).addr.family = .inet := by
  have h : listenInet .inet ⟨.inet6, none, 9090⟩ [⟨.inet, none, 9090⟩] (fun _ => true) true = .ok ⟨⟨.inet, none, 9090⟩, true⟩ := rfl
  rcases (listens_where h (want := .inet) (.inr ⟨by decide, rfl⟩)).2 with ⟨_, _, _, h, _⟩ | ⟨h, _⟩
  · exact h
  · exact absurd rfl (h ⟨.inet, none, 9090⟩ (by simp))

/-- The addresses of a machine with both families, as `getaddrinfo(None, 9090, flags=AI_PASSIVE)` gives them -/
example : listenInet .unspec { family := .inet, host := none, port := 9090 } [{ family := .inet6, host := none, port := 9090 }] (fun _ => true) true =
    .ok { addr := { family := .inet6, host := none, port := 9090 }, v6only := false } := rfl

example (t : Addr) (ht : t.port = 9090) (hf : t.family = .inet ∨ t.family = .inet6) : Accepts { addr := { family := .inet6, host := none, port := 9090 }, v6only := false } t :=
  dual_stack { family := .inet, host := none, port := 9090 } [{ family := .inet6, host := none, port := 9090 }] (fun _ => true) true _ (by simp)
    ⟨{ family := .inet6, host := none, port := 9090 }, by simp, rfl⟩ rfl t ht hf

/-- A name with two addresses of IPv4: the server listens on the second one only, and clients find it. -/
example : ∃ n t, ([⟨.inet, some 1, 9090⟩, ⟨.inet, some 2, 9090⟩] : List Addr)[n]? = some t ∧ Accepts ⟨⟨.inet, some 2, 9090⟩, true⟩ t ∧
    (Socket.open_ none (.addrs ([⟨.inet, some 1, 9090⟩, ⟨.inet, some 2, 9090⟩].map fun t => if Accepts ⟨⟨.inet, some 2, 9090⟩, true⟩ t then .accepted else .refused))).1 = .ok () ∧
    (Socket.open_ none (.addrs ([⟨.inet, some 1, 9090⟩, ⟨.inet, some 2, 9090⟩].map fun t => if Accepts ⟨⟨.inet, some 2, 9090⟩, true⟩ t then .accepted else .refused))).2.1 = some n :=
  client_reaches .unspec ⟨.inet, some 1, 9090⟩ [⟨.inet, some 2, 9090⟩] (fun _ => true) true _ rfl _ (fun _ h => h) _ (fun _ h => if_pos h) (fun _ h => if_neg h)

end Thrift.ServerSocket
