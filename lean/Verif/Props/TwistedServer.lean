import Verif.Spec.TwistedServer
import Verif.Props.Calls
import Verif.Proofs.Twisted
import Verif.Proofs.KeepsW
/-
C75: the Twisted server answers every request once, whatever the order in which the handlers finish.
-/

namespace Thrift.TwistedServer
open Rpc Spec Spec.TwistedServer

section
variable {σ τ : Type} [HasDepth σ] [HasDepth τ] {env : Env σ τ} {kind : Kind}

/-! ### One request does not depend on the others -/

theorem settle_at (k : Nat) (f : Final) : settle kind k f = (settle kind 0 f).map (Obs.at k) := by
  cases f <;> cases kind <;> simp only [settle, List.map_cons, List.map_nil, Obs.at]
  split <;> rfl

omit [HasDepth σ] in
theorem finish_at (w : Waiting) (o : Outcome) :
    finish env kind w o = (finish env kind ⟨0, w.fn, w.seqid⟩ o).map (Obs.at w.k) := by
  unfold finish
  exact settle_at _ _

theorem unknown_at (k : Nat) (name : PyStr) (seqid : Int) (s : σ) (rest : Bytes) :
    unknown env kind k name seqid s rest = (unknown env kind 0 name seqid s rest).map (Obs.at k) := by
  unfold unknown
  split
  · rfl
  · rfl
  · split
    · rfl
    · exact settle_at _ _

/-- The same waiting request under another number -/
def Waiting.at (k : Nat) (w : Waiting) : Waiting := { w with k := k }

theorem frame_at (s : St) (b : Bytes) (o : Option Outcome) :
    s.frame env kind b o = ({ made := s.made + 1, waiting := (({} : St).frame env kind b o).1.waiting.map (Waiting.at s.made) ++ s.waiting },
      (({} : St).frame env kind b o).2.map (Obs.at s.made)) := by
  unfold St.frame
  dsimp only
  split
  · rfl
  · rfl
  · split
    · dsimp only; rw [unknown_at]; rfl
    · split
      · rfl
      · rfl
      · split
        · rfl
        · dsimp only
          rw [finish_at]
          rfl

/-- What a frame leaves behind: at most one waiting request, and then nothing but the call of the handler was seen. -/
theorem frame_one (b : Bytes) (o : Option Outcome) :
    ((({} : St).frame env kind b o).1.waiting = [] ∧ ((ends (({} : St).frame env kind b o).2).length ≤ 1)) ∨
    o = none ∧ ∃ fn seqid args, ({} : St).frame env kind b o = ({ made := 1, waiting := [⟨0, fn, seqid⟩] }, [.invoked 0 fn args]) := by
  have hs : ∀ f, (ends (settle kind 0 f)).length ≤ 1 := by
    intro f
    cases f <;> cases kind <;> simp only [settle] <;> first | (split <;> simp [ends]) | simp [ends]
  unfold St.frame
  dsimp only
  split
  · exact .inl ⟨rfl, by simp [ends]⟩
  · exact .inl ⟨rfl, by simp [ends]⟩
  · split
    · refine .inl ⟨rfl, ?_⟩
      dsimp only
      unfold unknown
      split
      · simp [ends]
      · simp [ends]
      · split
        · simp [ends]
        · exact hs _
    · split
      · exact .inl ⟨rfl, by simp [ends]⟩
      · exact .inl ⟨rfl, by simp [ends]⟩
      · split
        · exact .inr ⟨rfl, _, _, _, rfl⟩
        · exact .inl ⟨rfl, by show (ends (finish _ _ _ _)).length ≤ 1; exact hs _⟩

theorem ends_append (a b : List Obs) : ends (a ++ b) = ends a ++ ends b := List.filterMap_append ..
theorem invoked_append (a b : List Obs) : invoked (a ++ b) = invoked a ++ invoked b := List.filterMap_append ..
theorem received_append (a b : List Event) : received (a ++ b) = received a ++ received b := List.filterMap_append ..

theorem ends_at (k : Nat) (os : List Obs) : ends (os.map (Obs.at k)) = (ends os).map fun _ => k := by
  induction os with
  | nil => rfl
  | cons x os ih => cases x <;> simp only [ends, List.map_cons, Obs.at, List.filterMap_cons] at ih ⊢ <;> first | exact ih | rw [ih]

theorem invoked_at (k : Nat) (os : List Obs) : invoked (os.map (Obs.at k)) = (invoked os).map fun _ => k := by
  induction os with
  | nil => rfl
  | cons x os ih => cases x <;> simp only [invoked, List.map_cons, Obs.at, List.filterMap_cons] at ih ⊢ <;> first | exact ih | rw [ih]

theorem at_k (k : Nat) (x : Obs) : (x.at k).k = k := by cases x <;> rfl
theorem at_at (k l : Nat) (x : Obs) : (x.at k).at l = x.at l := by cases x <;> rfl

theorem settle_ends (f : Final) : (ends (settle kind 0 f)).length ≤ 1 ∧ invoked (settle kind 0 f) = [] := by
  cases f <;> cases kind <;> simp only [settle] <;> first | (split <;> simp [ends, invoked]) | simp [ends, invoked]

theorem frame_invoked (b : Bytes) (o : Option Outcome) : (invoked (({} : St).frame env kind b o).2).length ≤ 1 := by
  unfold St.frame
  dsimp only
  split
  · simp [invoked]
  · simp [invoked]
  · split
    · dsimp only
      unfold unknown
      split
      · simp [invoked]
      · simp [invoked]
      · split
        · simp [invoked]
        · rw [(settle_ends _).2]; simp
    · split
      · simp [invoked]
      · simp [invoked]
      · split
        · simp [invoked]
        · dsimp only
          show (_ :: invoked (finish _ _ _ _)).length ≤ 1
          unfold finish
          rw [(settle_ends _).2]; simp

theorem alone_mono {es es' : List Event} {x : Obs} (h : Alone env kind es x) : Alone env kind (es ++ es') x := by
  obtain ⟨b, o, h1, tail, h2, h3⟩ := h
  refine ⟨b, o, ?_, tail, ?_, h3⟩
  · rw [received_append, List.getElem?_append_left (List.getElem?_eq_some_iff.1 h1).1]; exact h1
  · rcases h2 with h2 | ⟨h2, o', h4, h5⟩
    · exact .inl h2
    · exact .inr ⟨h2, o', h4, by simp [h5]⟩

/-- What holds after every history -/
structure Inv (env : Env σ τ) (kind : Kind) (es : List Event) (s : St) (os : List Obs) : Prop where
  made : s.made = (received es).length
  distinct : (s.waiting.map Waiting.k).Nodup
  open_ : ∀ w ∈ s.waiting, w.k < s.made ∧ w.k ∉ ends os
  once : (ends os).Nodup
  known : ∀ k ∈ ends os, k < s.made
  called : (invoked os).Nodup
  knownCalled : ∀ k ∈ invoked os, k < s.made
  origin : ∀ w ∈ s.waiting, ∃ b args, (received es)[w.k]? = some (b, none) ∧
    ({} : St).frame env kind b none = ({ made := 1, waiting := [⟨0, w.fn, w.seqid⟩] }, [.invoked 0 w.fn args])
  alone : ∀ x ∈ os, Alone env kind es x

theorem nodup_const {l : List Nat} (k : Nat) (h : l.length ≤ 1) : (l.map fun _ => k).Nodup := by
  match l, h with
  | [], _ => simp
  | [_], _ => simp
  | _ :: _ :: _, h => simp at h

theorem inv_step {es : List Event} {s s' : St} {os os' : List Obs} (h : Inv env kind es s os) (e : Event)
    (hs : s.step env kind e = some (s', os')) : Inv env kind (es ++ [e]) s' (os ++ os') := by
  cases e with
  | frame b o =>
    unfold St.step at hs
    dsimp only at hs
    rw [frame_at] at hs
    injection hs with hs
    injection hs with hs1 hs2
    subst hs1 hs2
    have hf : received (es ++ [.frame b o]) = received es ++ [(b, o)] := by rw [received_append]; rfl
    have hlast : (received (es ++ [.frame b o]))[s.made]? = some (b, o) := by
      rw [hf, h.made, List.getElem?_append_right (Nat.le_refl _), Nat.sub_self]; rfl
    have hold : ∀ w ∈ s.waiting, ∃ b' args, (received (es ++ [.frame b o]))[w.k]? = some (b', none) ∧
        ({} : St).frame env kind b' none = ({ made := 1, waiting := [⟨0, w.fn, w.seqid⟩] }, [.invoked 0 w.fn args]) := by
      intro w hw
      obtain ⟨b', args, h1, h2⟩ := h.origin w hw
      refine ⟨b', args, ?_, h2⟩
      rw [hf, List.getElem?_append_left (List.getElem?_eq_some_iff.1 h1).1]; exact h1
    have hnew : ∀ k ∈ ends ((({} : St).frame env kind b o).2.map (Obs.at s.made)), k = s.made := by
      rw [ends_at]; intro k hk; obtain ⟨_, _, rfl⟩ := List.mem_map.1 hk; rfl
    have hnew' : ∀ k ∈ invoked ((({} : St).frame env kind b o).2.map (Obs.at s.made)), k = s.made := by
      rw [invoked_at]; intro k hk; obtain ⟨_, _, rfl⟩ := List.mem_map.1 hk; rfl
    have hone := frame_one (env := env) (kind := kind) b o
    refine ⟨?_, ?_, ?_, ?_, ?_, ?_, ?_, ?_, ?_⟩
    · rw [hf, h.made]; simp
    · dsimp only
      rcases hone with ⟨h1, _⟩ | ⟨_, fn, q, args, h1⟩
      · rw [h1]; exact h.distinct
      · rw [h1]
        show (s.made :: s.waiting.map Waiting.k).Nodup
        refine List.nodup_cons.2 ⟨fun hm => ?_, h.distinct⟩
        obtain ⟨w, hw, e⟩ := List.mem_map.1 hm
        have := (h.open_ w hw).1
        omega
    · intro w hw
      dsimp only at hw ⊢
      rw [ends_append, List.mem_append]
      rcases hone with ⟨h1, _⟩ | ⟨_, fn, q, args, h1⟩
      · rw [h1] at hw
        obtain ⟨h2, h3⟩ := h.open_ w hw
        exact ⟨by omega, fun hm => hm.elim h3 fun hm => by have := hnew _ hm; omega⟩
      · rw [h1] at hw ⊢
        rcases List.mem_cons.1 hw with rfl | hw
        · refine ⟨Nat.lt_succ_self _, fun hm => hm.elim (fun hm => ?_) fun hm => ?_⟩
          · exact absurd (h.known _ hm) (Nat.lt_irrefl _)
          · simp [ends, Obs.at] at hm
        · obtain ⟨h2, h3⟩ := h.open_ w hw
          exact ⟨by omega, fun hm => hm.elim h3 fun hm => by simp [ends, Obs.at] at hm⟩
    · rw [ends_append]
      refine List.nodup_append.2 ⟨h.once, ?_, ?_⟩
      · rw [ends_at]
        refine nodup_const _ ?_
        rcases hone with ⟨_, h2⟩ | ⟨_, fn, q, args, h1⟩
        · exact h2
        · rw [h1]; simp [ends]
      · intro k hk k' hk' e
        have := h.known k hk
        have := hnew k' hk'
        omega
    · intro k hk
      dsimp only
      rw [ends_append, List.mem_append] at hk
      rcases hk with hk | hk
      · have := h.known k hk; omega
      · have := hnew k hk; omega
    · rw [invoked_append]
      refine List.nodup_append.2 ⟨h.called, ?_, ?_⟩
      · rw [invoked_at]
        exact nodup_const _ (frame_invoked b o)
      · intro k hk k' hk' e
        have := h.knownCalled k hk
        have := hnew' k' hk'
        omega
    · intro k hk
      dsimp only
      rw [invoked_append, List.mem_append] at hk
      rcases hk with hk | hk
      · have := h.knownCalled k hk; omega
      · have := hnew' k hk; omega
    · intro w hw
      dsimp only at hw
      rcases hone with ⟨h1, _⟩ | ⟨ho, fn, q, args, h1⟩
      · rw [h1] at hw; exact hold w hw
      · rw [h1] at hw
        rcases List.mem_cons.1 hw with rfl | hw
        · refine ⟨b, args, ?_, ?_⟩
          · rw [← ho]; exact hlast
          · rw [← ho]; exact h1
        · exact hold w hw
    · intro x hx
      rcases List.mem_append.1 hx with hx | hx
      · exact alone_mono (h.alone x hx)
      · obtain ⟨y, hy, rfl⟩ := List.mem_map.1 hx
        refine ⟨b, o, by rw [at_k]; exact hlast, [], .inl rfl, ?_⟩
        refine ⟨(({} : St).frame env kind b o).1, (({} : St).frame env kind b o).2 ++ [], rfl, ?_⟩
        rw [at_at, List.append_nil]
        have : y.at 0 = y := by
          have h0 := congrArg Prod.snd (frame_at (env := env) (kind := kind) ({} : St) b o)
          dsimp only at h0
          rw [h0] at hy
          obtain ⟨z, _, rfl⟩ := List.mem_map.1 hy
          rw [at_at]
        rwa [this]
  | finish k o =>
    unfold St.step at hs
    dsimp only at hs
    cases hw : s.find k with
    | none => rw [hw] at hs; cases hs
    | some w =>
      rw [hw] at hs
      injection hs with hs
      injection hs with hs1 hs2
      subst hs1 hs2
      have hmem : w ∈ s.waiting := List.mem_of_find?_eq_some hw
      have hk : w.k = k := by simpa using List.find?_some hw
      have hf : received (es ++ [.finish k o]) = received es := by rw [received_append]; exact List.append_nil _
      have hin : invoked (finish env kind w o) = [] := by
        rw [finish_at, invoked_at]; unfold finish; rw [(settle_ends _).2]; rfl
      have hnew : ∀ j ∈ ends (finish env kind w o), j = k := by
        rw [finish_at, ends_at]; intro j hj; obtain ⟨_, _, rfl⟩ := List.mem_map.1 hj; exact hk
      have hsub : ∀ w' ∈ s.waiting.filter (fun w => decide (w.k ≠ k)), w' ∈ s.waiting ∧ w'.k ≠ k := by
        intro w' hw'; have := List.mem_filter.1 hw'; exact ⟨this.1, by simpa using this.2⟩
      refine ⟨?_, ?_, ?_, ?_, ?_, ?_, ?_, ?_, ?_⟩
      · rw [hf]; exact h.made
      · exact h.distinct.sublist (List.filter_sublist.map _)
      · intro w' hw'
        obtain ⟨h1, h2⟩ := hsub w' hw'
        refine ⟨(h.open_ w' h1).1, ?_⟩
        rw [ends_append, List.mem_append]
        exact fun hm => hm.elim (h.open_ w' h1).2 fun hm => h2 (hnew _ hm)
      · rw [ends_append]
        refine List.nodup_append.2 ⟨h.once, ?_, ?_⟩
        · rw [finish_at, ends_at]
          exact nodup_const _ (settle_ends _).1
        · intro j hj j' hj' e
          exact (h.open_ w hmem).2 (by rw [hk, ← hnew j' hj', ← e]; exact hj)
      · intro j hj
        rw [ends_append, List.mem_append] at hj
        rcases hj with hj | hj
        · exact h.known j hj
        · have := (h.open_ w hmem).1
          rw [hnew j hj, ← hk]; exact this
      · rw [invoked_append, hin, List.append_nil]; exact h.called
      · rw [invoked_append, hin, List.append_nil]; exact h.knownCalled
      · intro w' hw'
        rw [hf]
        exact h.origin w' (hsub w' hw').1
      · intro x hx
        rcases List.mem_append.1 hx with hx | hx
        · exact alone_mono (h.alone x hx)
        · rw [finish_at] at hx
          obtain ⟨y, hy, rfl⟩ := List.mem_map.1 hx
          obtain ⟨b, args, h1, h2⟩ := h.origin w hmem
          refine ⟨b, none, ?_, [.finish 0 o], .inr ⟨rfl, o, rfl, ?_⟩, ?_⟩
          · rw [at_k, hf]; exact h1
          · rw [at_k, hk]; simp
          · have h3 : ({ made := 1, waiting := [⟨0, w.fn, w.seqid⟩] } : St).step env kind (.finish 0 o) =
                some ({ made := 1, waiting := [] }, finish env kind ⟨0, w.fn, w.seqid⟩ o) := rfl
            refine ⟨{ made := 1, waiting := [] }, [.invoked 0 w.fn args] ++ (finish env kind ⟨0, w.fn, w.seqid⟩ o ++ []), ?_, ?_⟩
            · have h0 : ({} : St).step env kind (.frame b none) = some ({ made := 1, waiting := [⟨0, w.fn, w.seqid⟩] }, [.invoked 0 w.fn args]) :=
                congrArg some h2
              unfold St.run
              rw [h0]
              dsimp only
              unfold St.run
              rw [h3]
              rfl
            · rw [at_at]
              have : y.at 0 = y := by
                have h0 := finish_at (env := env) (kind := kind) ⟨0, w.fn, w.seqid⟩ o
                dsimp only at h0
                rw [h0] at hy
                obtain ⟨z, _, rfl⟩ := List.mem_map.1 hy
                rw [at_at]
              rw [this]
              simp [hy]

theorem inv_run {es : List Event} {s : St} {os : List Obs} (h : Inv env kind es s os) : ∀ (es' : List Event) {s' : St} {os' : List Obs},
    s.run env kind es' = some (s', os') → Inv env kind (es ++ es') s' (os ++ os') := by
  intro es'
  induction es' generalizing es s os with
  | nil =>
    intro s' os' hr
    unfold St.run at hr
    injection hr with hr
    injection hr with h1 h2
    subst h1 h2
    simpa using h
  | cons e es' ih =>
    intro s' os' hr
    unfold St.run at hr
    cases hs : s.step env kind e with
    | none => rw [hs] at hr; cases hr
    | some r =>
      obtain ⟨s1, o1⟩ := r
      rw [hs] at hr
      dsimp only at hr
      cases hr' : s1.run env kind es' with
      | none => rw [hr'] at hr; cases hr
      | some r' =>
        obtain ⟨s2, o2⟩ := r'
        rw [hr'] at hr
        injection hr with hr
        injection hr with h1 h2
        subst h1 h2
        have := ih (inv_step h e hs) hr'
        simpa using this

theorem inv_init : Inv env kind [] {} [] :=
  ⟨rfl, List.nodup_nil, (fun _ h => nomatch h), List.nodup_nil, (fun _ h => nomatch h), List.nodup_nil, (fun _ h => nomatch h),
    (fun _ h => nomatch h), (fun _ h => nomatch h)⟩

/-- C75: in every history, whatever arrives and however the handlers finish: for no request is the handler called twice, and for no request
are there two replies, or a reply and a closed connection. -/
theorem answered_once (env : Env σ τ) (kind : Kind) (es : List Event) (s : St) (os : List Obs)
    (h : ({} : St).run env kind es = some (s, os)) : (ends os).Nodup ∧ (invoked os).Nodup := by
  have := inv_run inv_init es h
  rw [List.nil_append] at this
  exact ⟨this.once, this.called⟩

/-- C75: what is done about a request does not depend on the other requests, and not on the order in which handlers finish. -/
theorem independent (env : Env σ τ) (kind : Kind) (es : List Event) (s : St) (os : List Obs)
    (h : ({} : St).run env kind es = some (s, os)) : ∀ x ∈ os, Alone env kind es x := by
  have := inv_run inv_init es h
  rw [List.nil_append, List.nil_append] at this
  exact this.alone

/-! ### What is answered -/

/-- The environment of a generated processor that is not for Twisted -/
def rpcEnv (env : Env σ τ) : Rpc.Env σ τ Unit := ⟨env.q, fun _ w => (.ok (), w), env.sch, env.mode, env.fuel⟩

omit [HasDepth σ] in
theorem writeReply_eq (fn : Fn) (r : Reply) : writeReply env fn r = Rpc.writeReply (rpcEnv env) fn r := by
  cases r <;> rfl

omit [HasDepth σ] [HasDepth τ] in
theorem clauses_of {fn : Fn} {o : Outcome} {r : Int × Reply} (h : Rpc.answer fn o = .ok (some r)) (ho : ∀ v, o ≠ .returned v) :
    clauses fn o = some r := by
  cases o with
  | returned v => exact absurd rfl (ho v)
  | transport t => cases h
  | base n => cases h
  | declared sid as =>
    unfold Rpc.answer at h
    unfold clauses
    dsimp only at h ⊢
    split at h
    · cases h
    · split at h <;> rename_i hi <;> rw [hi] <;> injection h with h
  | application x =>
    unfold Rpc.answer at h
    unfold clauses
    dsimp only at h ⊢
    split at h
    · cases h
    · injection h with h
  | other n =>
    unfold Rpc.answer at h
    unfold clauses
    dsimp only at h ⊢
    split at h
    · cases h
    · injection h with h

omit [HasDepth σ] in
theorem finish_settled {G : Format} {IdleOut : τ → Prop} (hq : Sends env.q G IdleOut) (ht : IdleOut env.t₀)
    (hG : ∀ n t q, G.header n t q ≠ []) (hsch : SchemaOK env.mode env.sch) {w : Waiting} (hn : TextOK w.fn.name) (hr : InRange 32 w.seqid)
    {o : Outcome} {os : List Obs} (h : Settled env G kind w.k w.fn w.seqid o os) : finish env kind w o = os := by
  unfold finish
  cases h with
  | @reply _ type sch sid v h1 h2 h3 h4 h5 =>
    rw [if_neg (by rw [h1]; simp)]
    obtain ⟨r, mode, e1, e2, e3⟩ := answer_of (env := rpcEnv env) h2 h1 hsch h3
    have hty : IsMessageType type := by cases h3 <;> exact ⟨by omega, by omega⟩
    obtain ⟨t', hm, _⟩ := hq w.fn.name type w.seqid sch mode sid v env.t₀ [] ht hn hty hr e2 h4 (fun _ => h5)
    have hm' : message env.q w.fn.name type w.seqid (writeReply env w.fn r) env.t₀ [] =
        (.ok (), t', G.header w.fn.name type w.seqid ++ G.value sch (.struct sid) v) := by
      rw [writeReply_eq, e3]; exact hm
    have hfin : finishTwoWay env w.fn w.seqid o = .done (G.header w.fn.name type w.seqid ++ G.value sch (.struct sid) v) := by
      by_cases ho : ∃ x, o = .returned x
      · obtain ⟨x, rfl⟩ := ho
        unfold Rpc.answer at e1
        simp only [h1, Bool.false_eq_true, if_false, Except.ok.injEq, Option.some.injEq, Prod.mk.injEq] at e1
        unfold finishTwoWay
        dsimp only
        rw [e1.1, e1.2, hm']
      · have ho' : ∀ x, o ≠ .returned x := fun x e => ho ⟨x, e⟩
        have hc := clauses_of e1 ho'
        have : finishTwoWay env w.fn w.seqid o = writeException env w.fn w.seqid o env.t₀ [] := by
          cases o with
          | returned x => exact absurd rfl (ho' x)
          | _ => rfl
        rw [this]
        unfold writeException
        rw [hc]
        dsimp only
        rw [hm']
    rw [hfin]
    cases kind
    · unfold settle
      dsimp only
      rw [if_pos]
      have := hG w.fn.name type w.seqid
      rw [List.length_append]
      have := List.length_pos_iff.2 this
      omega
    · rfl
  | oneway h1 h2 h3 =>
    rw [if_pos h1]
    have : finishOneway o = .done [] := by
      cases o with
      | transport t => exact absurd rfl (h2 t)
      | base n => exact absurd rfl (h3 n)
      | _ => rfl
    rw [this]
    cases kind <;> rfl
  | transport t hk =>
    subst hk
    split <;> rfl
  | base n hk =>
    subst hk
    split <;> rfl

theorem frame_good {F : Format} {Idle : σ → Prop} {sl cl : Option Int} (hp : Receives env.p F Idle sl cl) (hs : Idle env.s₀)
    {r : Request} (hr : Good env sl cl r) (s : St) (o : Option Outcome) : s.frame env kind (r.bytes F) o =
      match o with
      | none => ({ made := s.made + 1, waiting := ⟨s.made, r.fn, r.seqid⟩ :: s.waiting }, [.invoked s.made r.fn (r.attrs env)])
      | some o => ({ s with made := s.made + 1 }, .invoked s.made r.fn (r.attrs env) :: finish env kind ⟨s.made, r.fn, r.seqid⟩ o) := by
  have h1 := hp.header r.fn.name r.type r.seqid env.s₀ (F.value r.sch (.struct r.fn.argsId) r.args) hs hr.header
  obtain ⟨s', hi', h2⟩ := hp.value env.mode r.sch env.sch r.fn.argsId r.args env.s₀ env.fuel hs hr.body
  have h2' := h2 []
  rw [List.append_nil] at h2'
  unfold St.frame Request.bytes
  dsimp only
  rw [h1]
  dsimp only
  rw [lookup_serves hr.serves]
  dsimp only
  rw [exec_bind, h2', Res.andThen_ok, exec_bind, hp.finish s' [] hi', Res.andThen_ok]
  rw [exec_pure]
  dsimp only
  cases o <;> rfl

theorem frame_unknown {F G : Format} {Idle : σ → Prop} {IdleOut : τ → Prop} {sl cl : Option Int} (hp : Receives env.p F Idle sl cl)
    (hs : Idle env.s₀) (hq : Sends env.q G IdleOut) (ht : IdleOut env.t₀) (hG : ∀ n t q, G.header n t q ≠ [])
    {r : Request} (hr : Unknown env sl cl r) (s : St) (o : Option Outcome) : s.frame env kind (r.bytes F) o =
      ({ s with made := s.made + 1 }, [.reply s.made (G.header r.fn.name 3 r.seqid ++ G.app (unknownMethod r.fn.name))]) := by
  have h1 := hp.header r.fn.name r.type r.seqid env.s₀ (F.value r.sch (.struct r.fn.argsId) r.args) hs hr.header
  obtain ⟨s', hi', h2⟩ := hp.skip r.sch r.fn.argsId r.args env.s₀ env.fuel hs hr.fields hr.typed hr.limits hr.depth hr.texts hr.fuel
  have h2' := h2 []
  rw [List.append_nil] at h2'
  obtain ⟨t', hm, _⟩ := app_write hq r.fn.name 3 r.seqid (unknownMethod r.fn.name) env.t₀ [] ht
    ⟨hr.header.text, (by intro l h; cases h), ⟨by omega, by omega⟩, hr.header.range⟩ hr.answer
  unfold St.frame Request.bytes
  dsimp only
  rw [h1]
  dsimp only
  rw [lookup_none hr.missing]
  dsimp only
  unfold unknown
  rw [exec_bind, h2', Res.andThen_ok, hp.finish s' [] hi']
  dsimp only
  rw [show message env.q r.fn.name TMessageType.EXCEPTION r.seqid
    (appWrite env.q { type := some 1, message := some (pyStr "Unknown function " ++ r.fn.name) }) env.t₀ [] = _ from hm]
  dsimp only
  rw [List.nil_append]
  cases kind
  · unfold settle
    dsimp only
    rw [if_pos]
    have := List.length_pos_iff.2 (hG r.fn.name 3 r.seqid)
    rw [List.length_append]
    omega
  · rfl

/-- C75: for every history of calls and of handlers that finish, in any order: the handler of each call is called with the arguments as
sent; when it is done, one reply is sent with the name and the sequence id of the call and what the handler did (nothing for `oneway`
functions; the connection is closed for a `TTransportException`). -/
theorem served_partial (env : Env σ τ) (kind : Kind) {F G : Format} {Idle : σ → Prop} {IdleOut : τ → Prop} {sl cl : Option Int}
    (hp : Receives env.p F Idle sl cl) (hs : Idle env.s₀) (hq : Sends env.q G IdleOut) (ht : IdleOut env.t₀)
    (hG : ∀ n t q, G.header n t q ≠ []) (hsch : SchemaOK env.mode env.sch) (as : List Act) (os : List Obs)
    (h : Served env G kind sl cl 0 [] as os) : ∃ s, ({} : St).run env kind (as.map (Act.event F)) = some (s, os) := by
  have main : ∀ (n : Nat) (ws : List Waiting) (as : List Act) (os : List Obs), Served env G kind sl cl n ws as os →
      (∀ w ∈ ws, TextOK w.fn.name ∧ InRange 32 w.seqid) → (ws.map Waiting.k).Nodup → (∀ w ∈ ws, w.k < n) →
      ∃ s, ({ made := n, waiting := ws } : St).run env kind (as.map (Act.event F)) = some (s, os) := by
    intro n ws as os h
    induction h with
    | nil n ws => intro _ _ _; exact ⟨_, rfl⟩
    | @now n ws r o as os os' hg hst _ ih =>
      intro h1 h2 h3
      obtain ⟨s, hs'⟩ := ih h1 h2 fun w hw => Nat.lt_succ_of_lt (h3 w hw)
      have hf := frame_good (kind := kind) hp hs hg { made := n, waiting := ws } (some o)
      dsimp only at hf
      rw [finish_settled hq ht hG hsch (w := ⟨n, r.fn, r.seqid⟩) hg.header.text hg.header.range hst] at hf
      refine ⟨s, ?_⟩
      rw [List.map_cons]
      unfold St.run
      show (match (some (St.frame env kind { made := n, waiting := ws } (r.bytes F) (some o)) : Option (St × List Obs)) with
        | none => none
        | some (s', o) => match s'.run env kind (as.map (Act.event F)) with
          | none => none
          | some (s'', os) => some (s'', o ++ os)) = _
      rw [hf]
      dsimp only
      rw [hs']
    | @later n ws r as os hg _ ih =>
      intro h1 h2 h3
      obtain ⟨s, hs'⟩ := ih (by
        intro w hw
        rcases List.mem_cons.1 hw with rfl | hw
        · exact ⟨hg.header.text, hg.header.range⟩
        · exact h1 w hw) (by
        refine List.nodup_cons.2 ⟨fun hm => ?_, h2⟩
        obtain ⟨w, hw, e⟩ := List.mem_map.1 hm
        have := h3 w hw
        dsimp only at e
        omega) (by
        intro w hw
        rcases List.mem_cons.1 hw with rfl | hw
        · exact Nat.lt_succ_self _
        · exact Nat.lt_succ_of_lt (h3 w hw))
      have hf := frame_good (kind := kind) hp hs hg { made := n, waiting := ws } none
      dsimp only at hf
      refine ⟨s, ?_⟩
      rw [List.map_cons]
      unfold St.run
      show (match (some (St.frame env kind { made := n, waiting := ws } (r.bytes F) none) : Option (St × List Obs)) with
        | none => none
        | some (s', o) => match s'.run env kind (as.map (Act.event F)) with
          | none => none
          | some (s'', os) => some (s'', o ++ os)) = _
      rw [hf]
      dsimp only
      rw [hs']
      rfl
    | @unknown n ws r o as os hu _ ih =>
      intro h1 h2 h3
      obtain ⟨s, hs'⟩ := ih h1 h2 fun w hw => Nat.lt_succ_of_lt (h3 w hw)
      have hf := frame_unknown (kind := kind) hp hs hq ht hG hu { made := n, waiting := ws } o
      dsimp only at hf
      refine ⟨s, ?_⟩
      rw [List.map_cons]
      unfold St.run
      show (match (some (St.frame env kind { made := n, waiting := ws } (r.bytes F) o) : Option (St × List Obs)) with
        | none => none
        | some (s', o) => match s'.run env kind (as.map (Act.event F)) with
          | none => none
          | some (s'', os) => some (s'', o ++ os)) = _
      rw [hf]
      dsimp only
      rw [hs']
      rfl
    | @finish n ws₁ ws₂ w o as os os' hst _ ih =>
      intro h1 h2 h3
      have hd : ∀ w' ∈ ws₁ ++ ws₂, w'.k ≠ w.k := by
        intro w' hw' e
        rw [List.map_append, List.map_cons] at h2
        have h4 := (List.nodup_append.1 h2)
        rcases List.mem_append.1 hw' with hw' | hw'
        · exact h4.2.2 w'.k (List.mem_map_of_mem hw') w.k (by simp) e
        · exact (List.nodup_cons.1 h4.2.1).1 (e ▸ List.mem_map_of_mem hw')
      have hsub : ∀ w' ∈ ws₁ ++ ws₂, w' ∈ ws₁ ++ w :: ws₂ := by
        intro w' hw'
        rcases List.mem_append.1 hw' with hw' | hw' <;> simp [hw']
      obtain ⟨s, hs'⟩ := ih (fun w' hw' => h1 w' (hsub w' hw')) (by
        refine h2.sublist ?_
        rw [List.map_append, List.map_append, List.map_cons]
        exact (List.Sublist.refl _).append (List.sublist_cons_self _ _)) (fun w' hw' => h3 w' (hsub w' hw'))
      refine ⟨s, ?_⟩
      have hfind : St.find { made := n, waiting := ws₁ ++ w :: ws₂ } w.k = some w := by
        unfold St.find
        dsimp only
        rw [List.find?_append, List.find?_eq_none.2 (fun x hx => by simpa using hd x (by simp [hx])), List.find?_cons_of_pos (by simp)]
        rfl
      have hfil : (ws₁ ++ w :: ws₂).filter (fun w' => decide (w'.k ≠ w.k)) = ws₁ ++ ws₂ := by
        rw [List.filter_append, List.filter_cons_of_neg (by simp), ← List.filter_append, List.filter_eq_self]
        intro a ha; simpa using hd a ha
      have hstep : St.step env kind { made := n, waiting := ws₁ ++ w :: ws₂ } (.finish w.k o) =
          some ({ made := n, waiting := ws₁ ++ ws₂ }, os) := by
        unfold St.step
        dsimp only
        rw [hfind]
        dsimp only
        rw [hfil, finish_settled hq ht hG hsch (h1 w (by simp)).1 (h1 w (by simp)).2 hst]
      rw [List.map_cons]
      unfold St.run
      show (match St.step env kind { made := n, waiting := ws₁ ++ w :: ws₂ } (.finish w.k o) with
        | none => none
        | some (s', o) => match s'.run env kind (as.map (Act.event F)) with
          | none => none
          | some (s'', os) => some (s'', o ++ os)) = _
      rw [hstep]
      dsimp only
      rw [hs']
  exact main 0 [] as os h (fun _ h => nomatch h) List.nodup_nil (fun _ h => nomatch h)

/-- A frame that has no message: nothing is called or sent, `stringReceived` raises. -/
theorem bad_frame (env : Env σ τ) (kind : Kind) (s : St) (b b' : Bytes) (o : Option Outcome) (e : Exc) (i : σ)
    (h : exec env.p.readMessageBegin env.s₀ b = some ((.error e, i), b')) :
    s.step env kind (.frame b o) = some ({ s with made := s.made + 1 }, [.raised s.made e]) := by
  unfold St.step St.frame
  dsimp only
  rw [h]

/-- A handler that raises `TTransportException`, behind `ThriftResource`: nothing is ever seen of the request again, the peer waits. -/
theorem resource_hangs (env : Env σ τ) {F : Format} {Idle : σ → Prop} {sl cl : Option Int} (hp : Receives env.p F Idle sl cl)
    (hs : Idle env.s₀) (r : Request) (hr : Good env sl cl r) (t : Int) :
    ({} : St).run env .resource [.frame (r.bytes F) (some (.transport t))] =
      some ({ made := 1 }, [.invoked 0 r.fn (r.attrs env), .unhandled 0]) := by
  have hf := frame_good (kind := .resource) hp hs hr {} (some (.transport t))
  dsimp only at hf
  unfold St.run St.step
  dsimp only
  rw [hf]
  have : finish env .resource ⟨0, r.fn, r.seqid⟩ (.transport t) = [.unhandled 0] := by
    unfold finish
    split <;> rfl
  rw [this]
  rfl

/-! ### A result that cannot be written -/

section
open Binary (Cfg)

omit [HasDepth σ] in
/-- The first message of a reply with an `i32` out of range: the header and the field header are written. -/
theorem first_message {env : Env σ Binary.St} (cfg : Cfg) (hc : cfg.strictWrite = true) (hq : env.q = Binary.proto cfg) (hm : env.mode = .gen)
    (fn : Fn) (hf : env.sch fn.resultId = [{ fid := 0, ty := .i32 }]) (htext : TextOK fn.name) (seqid : Int) (hsq : InRange 32 seqid)
    (n : Int) (hn : ¬ InRange 32 n) :
    message env.q fn.name TMessageType.REPLY seqid (writeReply env fn (.result [some (.int n)])) ⟨0⟩ [] =
      (.error .structError, ⟨0⟩, Spec.Binary.messageStrict fn.name 2 seqid ++ [8, 0, 0]) := by
  have h1 := (Binary.binary_message_strict cfg {} fn.name 2 seqid hc htext (by intro l h; cases h) (by omega) hsq).1 ⟨0⟩ []
  have hw : ∀ s out, Binary.writeI32 n s out = (.error .structError, s, out) :=
    fun s out => Binary.writeInt_refuses (n := 4) hn s out
  unfold message
  rw [hq]
  refine (W.bind_ok h1).trans (W.bind_error ?_)
  rw [List.nil_append]
  unfold writeReply
  rw [hm, hq]
  simp only [writeVal, hf]
  rw [if_pos (by simp [requiredSet])]
  refine (W.bind_ok (incDepthW_ok (by show (0 : Int) < 64; omega) _)).trans ?_
  unfold W.tryFinally
  have h2 : ∀ out, writeFields (Binary.proto cfg).wr env.sch .gen [{ fid := 0, ty := .i32 }] [some (.int n)] ⟨1⟩ out =
      (.error .structError, ⟨1⟩, out ++ [8, 0, 0]) := by
    intro out
    simp only [writeFields]
    have h3 : (Binary.proto cfg).wr.writeFieldBegin Ty.i32.ttype 0 ⟨1⟩ out = (.ok (), ⟨1⟩, out ++ [8, 0, 0]) := by
      refine (W.bind_ok (Binary.writeInt_eq (n := 1) (by decide) _ _)).trans ?_
      refine (Binary.writeInt_eq (n := 2) (by decide) _ _).trans ?_
      rw [List.append_assoc]
      rfl
    refine (W.bind_ok h3).trans (W.bind_error ?_)
    simp only [writeVal]
    exact hw _ _
  have h4 : (do
        (Binary.proto cfg).wr.writeStructBegin
        writeFields (Binary.proto cfg).wr env.sch .gen [{ fid := 0, ty := .i32 }] [some (.int n)]
        (Binary.proto cfg).wr.writeFieldStop
        (Binary.proto cfg).wr.writeStructEnd : W Binary.St Unit) ⟨1⟩ (Spec.Binary.messageStrict fn.name 2 seqid) =
      (.error .structError, ⟨1⟩, Spec.Binary.messageStrict fn.name 2 seqid ++ [8, 0, 0]) :=
    (W.bind_ok rfl).trans (W.bind_error (h2 _))
  have h5 : (HasDepth.setDepth (HasDepth.depth (⟨0⟩ : Binary.St) + 1) ⟨0⟩ : Binary.St) = ⟨1⟩ := rfl
  rw [h5, h4]
  rfl

/-- The negation of "a value that cannot be sent never reaches the client as another value", with `TBinaryProtocol`: a handler returns an
integer that does not fit an `i32`; the server sends a reply that the client takes for the value -2147418109. (The first message was
left unfinished in the buffer; the header of the second one is read as the value.) -/
theorem wrong_result (env : Env σ Binary.St) (cfg rcfg : Cfg) (hc : cfg.strictWrite = true) (hq : env.q = Binary.proto cfg)
    (ht : env.t₀ = {}) (hm : env.mode = .gen) (hs : SchemaOK .gen env.sch) (fn : Fn) (htwo : fn.oneway = false) (hret : fn.returns = true)
    (hthr : fn.throws = []) (hf : env.sch fn.resultId = [{ fid := 0, ty := .i32 }]) (htext : TextOK fn.name)
    (hlen : utf8Len fn.name < 2 ^ 24) (hlim : Within rcfg.stringLimit (utf8Len fn.name)) (seqid : Int) (hsq : InRange 32 seqid)
    (n : Int) (hn : ¬ InRange 32 n) (k fuel : Nat) (hfuel : 10 ≤ fuel) :
    ∃ b rest, finish env .protocol ⟨k, fn, seqid⟩ (.returned (some (.int n))) = [.reply k b] ∧
      exec (Rpc.recv (Binary.proto rcfg) env.sch .gen fuel fn) {} b = some ((.ok (.returned (some (.int (-2147418109)))), {}), rest) := by
  obtain ⟨t', h2, -⟩ := app_write (Binary.writes cfg hc) fn.name 3 seqid internalError ⟨0⟩
    (Spec.Binary.messageStrict fn.name 2 seqid ++ [8, 0, 0]) rfl ⟨htext, (by intro l h; cases h), ⟨by omega, by omega⟩, hsq⟩
    ⟨by intro m h; cases h; decide, by intro m h; cases h; decide⟩
  have h1 := first_message cfg hc hq hm fn hf htext seqid hsq n hn
  -- the beginning of the second message, read as the rest of the first
  obtain ⟨c, hblob⟩ : ∃ c, Spec.Binary.blob (utf8 fn.name) = 0 :: c := by
    refine ⟨beInt 3 (utf8 fn.name).length ++ utf8 fn.name, ?_⟩
    have hl : (utf8 fn.name).length < 2 ^ 24 := by rw [utf8_length htext.1]; exact hlen
    unfold Spec.Binary.blob
    generalize (utf8 fn.name).length = l at hl
    show [UInt8.ofNat (((l : Int) / 256 ^ 3 % 256).toNat)] ++ beInt 3 l ++ _ = _
    rw [show (l : Int) / 256 ^ 3 % 256 = 0 by omega]
    rfl
  have hv : Spec.Binary.value env.sch (.struct fn.resultId) (.struct [some (.int (-2147418109))]) =
      [8, 0, 0, 0x80, 0x01, 0x00, 0x03, 0] := by
    simp only [Spec.Binary.value, hf, Spec.Binary.fields]
    decide +kernel
  have hbytes : ∀ x, Spec.Binary.messageStrict fn.name 2 seqid ++ [8, 0, 0] ++ (Format.binary.header fn.name 3 seqid ++ x) =
      Format.binary.header fn.name 2 seqid ++
        (Format.binary.value env.sch (.struct fn.resultId) (.struct [some (.int (-2147418109))]) ++ (c ++ beInt 4 seqid ++ x)) := by
    intro x
    show Spec.Binary.messageStrict fn.name 2 seqid ++ [8, 0, 0] ++ (Spec.Binary.messageStrict fn.name 3 seqid ++ x) =
      Spec.Binary.messageStrict fn.name 2 seqid ++ (Spec.Binary.value env.sch (.struct fn.resultId) (.struct [some (.int (-2147418109))]) ++ _)
    rw [hv, List.append_assoc, Spec.Binary.messageStrict.eq_1 fn.name 3 seqid, hblob]
    simp
  have hsend : Sendable rcfg.stringLimit rcfg.containerLimit .gen env.sch fn.resultId (.struct [some (.int (-2147418109))]) fuel := by
    refine ⟨?_, ?_, ?_, ?_, ?_, ?_⟩
    · simp only [WT, WTf, hf]; decide
    · simp [NoHiddenDefault, NoHiddenDefaultf, hf]
    · simp [NoDuplicates, NoDuplicatesf]
    · simp [WithinLimits, Sizes, Sizesf]
    · intro _; simp [structDepth, structDepthf]
    · simp only [size, sizef]; omega
  have hres : ResultOK env.sch fn :=
    ⟨⟨[], by simp [hthr], .inl ⟨hret, .i32, hf⟩⟩, by simp [hf], by simp [hret], by simp [hf]⟩
  obtain ⟨r, s', hi', hmean, he⟩ := recv_reply (Binary.reads rcfg) .gen env.sch env.sch fuel fn hres {} rfl fn.name 2 seqid
    ⟨htext, hlim, ⟨by omega, by omega⟩, hsq⟩ (by omega) _ (hsend.body hs)
  rw [hsend.same hs] at hmean
  have hr : r = .returned (some (.int (-2147418109))) := by
    cases hmean with
    | success v h1 h2 => simp [attrsOf] at h2; rw [h2]
    | exception sid v i h1 h2 h3 h4 =>
      have := h4 hret
      cases i with
      | zero => omega
      | succ i => simp [attrsOf] at h2
    | void h1 h2 => rw [hret] at h1; cases h1
    | missing h1 h2 => have := h2 (some (.int (-2147418109))) (by simp [attrsOf]); cases this
  have hs' : s' = {} := by
    cases s'
    exact congrArg Binary.St.mk hi'
  refine ⟨Spec.Binary.messageStrict fn.name 2 seqid ++ [8, 0, 0] ++ (Format.binary.header fn.name 3 seqid ++ Format.binary.app internalError),
    c ++ beInt 4 seqid ++ Format.binary.app internalError, ?_, ?_⟩
  rotate_left
  · refine Eq.trans ?_ ((he (c ++ beInt 4 seqid ++ Format.binary.app internalError)).trans (by rw [hr, hs']))
    rw [← hbytes]
  · unfold finish
    dsimp only
    rw [htwo, if_neg (by simp)]
    unfold finishTwoWay
    dsimp only
    have hset : setSuccess fn (some (.int n)) = [some (.int n)] := by
      unfold setSuccess emptyResult
      rw [if_pos hret, if_pos hret, hthr]
      rfl
    rw [hset, ht]
    rw [show ({} : Binary.St) = ⟨0⟩ from rfl, h1]
    dsimp only
    unfold writeException
    have hcl : clauses fn (caught .structError) = some (TMessageType.EXCEPTION, .application internalError) := rfl
    rw [hcl]
    dsimp only
    unfold writeReply
    dsimp only
    rw [hq]
    have h2' : message (Binary.proto cfg) fn.name TMessageType.EXCEPTION seqid (appWrite (Binary.proto cfg) internalError) ⟨0⟩
        (Spec.Binary.messageStrict fn.name 2 seqid ++ [8, 0, 0]) = _ := h2
    rw [h2']
    dsimp only
    unfold settle
    dsimp only
    have hpos : 0 < (Spec.Binary.messageStrict fn.name 2 seqid ++ [8, 0, 0] ++
        (Format.binary.header fn.name 3 seqid ++ Format.binary.app internalError)).length := by
      simp only [List.length_append, List.length_cons]
      omega
    exact if_pos hpos

end

/-! With `TCompactProtocol` this does not happen. -/

/-- With `TCompactProtocol` a result arrives as a whole or not at all: whatever a handler returned, either all of `result.write` succeeded and
what was written is sent, or the connection is closed. -/
theorem compact_whole_or_closed (env : Env σ Compact.St) (cfg : Compact.Cfg) (hq : env.q = Compact.proto cfg) (ht : env.t₀ = {})
    (fn : Fn) (htwo : fn.oneway = false) (htext : TextOK fn.name) (seqid : Int) (hsq : InRange 32 seqid) (v : Option Val) (k : Nat) :
    finish env .protocol ⟨k, fn, seqid⟩ (.returned v) = [.closed k] ∨
      ∃ t b, writeVal Compact.wr env.sch env.mode (.struct fn.resultId) (.struct (setSuccess fn v)) { state := .VALUE_WRITE }
          (Spec.Compact.message fn.name 2 seqid) = (.ok (), t, b) ∧
        finish env .protocol ⟨k, fn, seqid⟩ (.returned v) = [.reply k b] := by
  have h1 := (Compact.compact_message {} fn.name 2 seqid {} rfl htext (by intro l h; cases h) (by omega) hsq).1 []
  rw [List.nil_append] at h1
  obtain ⟨r, t, b, hw⟩ : ∃ r t b, writeVal Compact.wr env.sch env.mode (.struct fn.resultId) (.struct (setSuccess fn v))
      { state := .VALUE_WRITE } (Spec.Compact.message fn.name 2 seqid) = (r, t, b) := ⟨_, _, _, rfl⟩
  have hbusy : Compact.Busy t b := by
    have := writeVal_keepsW env.sch env.mode Compact.keepsWOps (.struct (setSuccess fn v)) (.struct fn.resultId) { state := .VALUE_WRITE }
      (Spec.Compact.message fn.name 2 seqid) ⟨(fun h => nomatch h), (fun _ h => nomatch h), (fun _ h => nomatch h), (fun h => nomatch h)⟩
    rw [hw] at this
    exact this
  -- nothing can be written after a failure
  have hdead : ∀ o b, writeException env fn seqid o t b = .failed := by
    intro o b
    unfold writeException
    split
    · rfl
    · rename_i type rep _
      have : message env.q fn.name type seqid (writeReply env fn rep) t b = (.error .assertion, t, b) := by
        unfold message
        rw [hq]
        refine W.bind_error ?_
        refine (W.bind_ok (m := W.get) rfl).trans (W.bind_error ?_)
        rw [show (t.state == Compact.State.CLEAR) = false from by simpa using hbusy.state]
        rfl
      rw [this]
  have hfin : ∀ f, finishTwoWay env fn seqid (.returned v) = f →
      finish env .protocol ⟨k, fn, seqid⟩ (.returned v) = settle .protocol k f := by
    intro f hf
    unfold finish
    dsimp only
    rw [htwo, if_neg (by simp), hf]
  have hmsg : ∀ e t' b', ((do writeVal Compact.wr env.sch env.mode (.struct fn.resultId) (.struct (setSuccess fn v)); Compact.writeMessageEnd :
        W Compact.St Unit) { state := .VALUE_WRITE } (Spec.Compact.message fn.name 2 seqid) = (e, t', b')) →
      message env.q fn.name TMessageType.REPLY seqid (writeReply env fn (.result (setSuccess fn v))) env.t₀ [] = (e, t', b') := by
    intro e t' b' h
    unfold message writeReply
    rw [hq, ht]
    exact (W.bind_ok h1).trans h
  cases r with
  | error e =>
    have h2 := hmsg _ _ _ (W.bind_error hw)
    left
    refine hfin .failed ?_
    unfold finishTwoWay
    dsimp only
    rw [h2]
    exact hdead _ _
  | ok _ =>
    by_cases hst : t.state = .VALUE_WRITE
    · have h2 := hmsg (.ok ()) { t with state := .CLEAR } b ((W.bind_ok hw).trans ?_)
      · right
        refine ⟨t, b, hw, (hfin (.done b) ?_).trans (if_pos (List.length_pos_of_ne_nil hbusy.begun))⟩
        unfold finishTwoWay
        dsimp only
        rw [h2]
      · refine (W.bind_ok (m := W.get) rfl).trans ?_
        rw [hst]
        rfl
    · have h2 := hmsg (.error .assertion) t b ((W.bind_ok hw).trans ?_)
      · left
        refine hfin .failed ?_
        unfold finishTwoWay
        dsimp only
        rw [h2]
        exact hdead _ _
      · refine (W.bind_ok (m := W.get) rfl).trans (W.bind_error ?_)
        rw [show (t.state == Compact.State.VALUE_WRITE) = false from by simpa using hst]
        rfl

end

/-! ### Examples -/

section
open SampleService

/-- A server of the sample service -/
def sampleEnv : Env Compact.St Compact.St where
  p := Compact.proto { stringLimit := some 20, containerLimit := some 20 }
  s₀ := {}
  q := Compact.proto {}
  t₀ := {}
  sch := sch
  fuel := 100
  fns := fns

def sampleGet (seqid : Int) : Request := ⟨get, 1, seqid, sch, .struct args⟩
def sampleLog : Request := ⟨log, 4, 9, sch, .struct args⟩
def sampleOther : Request := ⟨{ get with name := pyStr "set" }, 1, 3, sch, .struct args⟩

theorem sample_good (seqid : Int) (h : InRange 32 seqid) : Good sampleEnv (some 20) (some 20) (sampleGet seqid) :=
  ⟨serves.1, ⟨(header_ok 1 ⟨by omega, by omega⟩).text, (header_ok 1 ⟨by omega, by omega⟩).limit, (header_ok 1 ⟨by omega, by omega⟩).kind, h⟩, (args_sendable .gen).body (sch_ok .gen)⟩

theorem sample_log : Good sampleEnv (some 20) (some 20) sampleLog :=
  ⟨serves.2.2, ⟨(by decide), (by intro l h; cases h; decide), ⟨by decide, by decide⟩, by decide⟩, (args_sendable .gen).body (sch_ok .gen)⟩

theorem sample_unknown : Unknown sampleEnv (some 20) (some 20) sampleOther where
  missing := by decide
  header := ⟨(by decide), (by intro l h; cases h; decide), ⟨by decide, by decide⟩, by decide⟩
  fields := fun sid => (sch_ok .gen sid).1
  typed := (args_sendable .gen).typed
  limits := (args_sendable .gen).limits
  depth := by simp [sampleOther, args, nesting, nestingf]
  texts := by simp [sampleOther, args, BinariesAreText, BinariesAreTextf]
  fuel := (args_sendable .gen).fuel
  answer := ⟨by intro m h; cases h; decide, by intro m h; cases h; decide⟩

/-- Two calls whose handlers finish in the other order, a `oneway` call, a call of a function that does not exist, and a handler that
raises `TTransportException`. -/
def sampleActs : List Act :=
  [.request (sampleGet 1) none, .request (sampleGet 2) none, .request sampleLog (some (.returned none)),
    .request sampleOther none, .finish 1 (.returned (some (.str (pyStr "seven")))), .finish 0 (.transport 4)]

example : ∃ os, Served sampleEnv Format.compact .protocol (some 20) (some 20) 0 [] sampleActs os ∧ ends os = [3, 1, 0] ∧
    invoked os = [0, 1, 2] := by
  refine ⟨_, .later (sample_good 1 (by decide)) (.later (sample_good 2 (by decide)) (.now sample_log
    (.oneway rfl (fun _ h => nomatch h) (fun _ h => nomatch h)) (.unknown sample_unknown
      (.finish (ws₁ := []) (.reply (type := 2) rfl get_ok (.value _ rfl) (seven_sendable .gen).typed ((seven_sendable .gen).depth rfl))
        (.finish (ws₁ := []) (.transport 4 rfl) (.nil _ _)))))), ?_, ?_⟩ <;> rfl

end

section
/-- A service with one function, `i32 count()`. -/
def countSch : Schema
  | 1 => [{ fid := 0, ty := .i32 }]
  | _ => []
def count : Fn := { name := pyStr "count", argsId := 0, resultId := 1, returns := true }
def countEnv : Env Binary.St Binary.St where
  p := Binary.proto {}
  s₀ := {}
  q := Binary.proto {}
  t₀ := {}
  sch := countSch
  fuel := 100
  fns := [count]

example := wrong_result countEnv {} { strictRead := true, stringLimit := some 20 } rfl rfl rfl rfl
  (fun sid => by match sid with
    | 1 => exact ⟨by unfold FieldsOK; decide, fun _ => by decide⟩
    | 0 => simp [countEnv, countSch, FieldsOK]
    | n + 2 => simp [countEnv, countSch, FieldsOK])
  count rfl rfl rfl rfl (by decide) (by decide) (by intro l h; cases h; decide) 5 (by decide) 3000000000 (by decide) 0 100 (by omega)

example : exec countEnv.p.readMessageBegin countEnv.s₀ [0x80, 2, 0, 1, 0, 0, 0, 0, 0, 0, 0, 0] =
    some ((.error TProtocolException.BAD_VERSION, {}), [0, 0, 0, 0, 0, 0, 0, 0]) := rfl

/-- The same service with `TCompactProtocol`: a result out of range closes the connection. -/
example : finish { countEnv with q := Compact.proto {}, t₀ := {} } .protocol ⟨0, count, 5⟩ (.returned (some (.int 3000000000))) = [.closed 0] := by
  rfl
example : ∃ b, finish { countEnv with q := Compact.proto {}, t₀ := {} } .protocol ⟨0, count, 5⟩ (.returned (some (.int 3))) = [.reply 0 b] :=
  ⟨_, rfl⟩

end
end Thrift.TwistedServer
