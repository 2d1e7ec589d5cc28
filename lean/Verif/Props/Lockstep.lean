/-
C111: equal URLs stay equal whatever is done with both.
-/
import Verif.Props.Assign
import Verif.Props.History
import Verif.Props.Interchange

namespace Urlstd.Props

open Spec (IsStr Assigns AssignsHost AssignsName AssignsPort AssignsPath Assignment CannotHaveUPP)

/-- a host that differs from another one in the upper bits of an IPv4 address at most -/
def HostSim (g h : Option Host) : Prop := g.map Host.canon = h.map Host.canon

private theorem hostSim_none {g h : Option Host} (e : HostSim g h) : g = none ↔ h = none := by
  unfold HostSim at e
  cases g <;> cases h <;> simp_all

private theorem canon_str {a : Host} {s : Str} : a.canon = .str s ↔ a = .str s := by
  cases a <;> simp [Host.canon]

private theorem hostSim_str {g h : Option Host} (e : HostSim g h) (s : Str) : g = some (.str s) ↔ h = some (.str s) := by
  unfold HostSim at e
  cases g with
  | none => cases h <;> simp_all
  | some a =>
    cases h with
    | none => simp_all
    | some b =>
      simp only [Option.map_some, Option.some.injEq] at e ⊢
      rw [← canon_str, ← canon_str (a := b), e]

private theorem hostSim_refl (g : Option Host) : HostSim g g := rfl

private theorem upp_sim {u : Rec} {g : Option Host} (e : HostSim g u.host) :
    CannotHaveUPP { u with host := g } ↔ CannotHaveUPP u := by
  unfold CannotHaveUPP
  dsimp only
  rw [hostSim_none e, hostSim_str e]

private theorem replaceable_sim {u : Rec} {g : Option Host} (e : HostSim g u.host) (sc : Str) :
    Spec.Replaceable { u with host := g } sc ↔ Spec.Replaceable u sc := by
  unfold Spec.Replaceable Spec.Occupied
  dsimp only
  rw [hostSim_none e, hostSim_str e]

/-- `v` is `w` but for the upper bits of an IPv4 host -/
def Twin (w v : Rec) : Prop := ∃ g, v = { w with host := g } ∧ HostSim g w.host

private theorem Twin.refl (w : Rec) : Twin w w := ⟨w.host, rfl, rfl⟩

private theorem assignsPort_sim {env : Env} {u : Rec} {g : Option Host} (e : HostSim g u.host) {t : Str} {x : Except Err Unit} {w : Rec}
    (h : AssignsPort env u t x w) : ∃ w', AssignsPort env { u with host := g } t x w' ∧ Twin w w' := by
  cases h with
  | nothing h => exact ⟨_, .nothing t h, g, rfl, e⟩
  | port d n hd h hn => exact ⟨_, .port t d n hd h hn, g, rfl, e⟩
  | refused d er hd h he => exact ⟨_, .refused t d er hd h he, g, rfl, e⟩

private theorem assignsName_sim {env : Env} {u : Rec} {g : Option Host} (e : HostSim g u.host) {t : Str} {x : Except Err Unit} {w : Rec}
    (h : AssignsName env u t x w) : ∃ w', AssignsName env { u with host := g } t x w' ∧ Twin w w' := by
  cases h with
  | needed h => exact ⟨_, .needed h, g, rfl, e⟩
  | kept h ho => exact ⟨_, .kept h ho, g, rfl, e⟩
  | empty h ho => exact ⟨_, .empty h ho, _, rfl, hostSim_refl _⟩
  | host b v hb hv => exact ⟨_, .host t v hb hv, _, rfl, hostSim_refl _⟩
  | refused b er hb he => exact ⟨_, .refused t er hb he, g, rfl, e⟩

private theorem assignsHost_sim {env : Env} {u : Rec} {g : Option Host} (e : HostSim g u.host) {p : Bool} {t : Str}
    {x : Except Err Unit} {w : Rec} (h : AssignsHost env u p t x w) :
    ∃ w', AssignsHost env { u with host := g } p t x w' ∧ Twin w w' := by
  cases h with
  | fileNone r hf hr => exact ⟨_, .fileNone t hf hr, _, rfl, hostSim_refl _⟩
  | file b r v hf hne hb hr hv => exact ⟨_, .file b r v hf hne hb hr hv, _, rfl, hostSim_refl _⟩
  | fileRefused b r er hf hne hb hr he => exact ⟨_, .fileRefused b r er hf hne hb hr he, g, rfl, e⟩
  | name b r x w hf hb hr h =>
    obtain ⟨w', h1, h2⟩ := assignsName_sim e h
    exact ⟨w', .name b r x w' hf hb hr h1, h2⟩
  | noName r hf => exact ⟨_, .noName r hf, g, rfl, e⟩
  | ignored b r hp hf hne hb hc => exact ⟨_, .ignored b r hp hf hne hb hc, g, rfl, e⟩
  | both b r v x w hp hf hne hb hc hv h => exact ⟨w, .both b r v x w hp hf hne hb hc hv h, Twin.refl w⟩
  | refused b r er hp hf hne hb hc he => exact ⟨_, .refused b r er hp hf hne hb hc he, g, rfl, e⟩

private theorem assignsPath_sim {u : Rec} {g : Option Host} (e : HostSim g u.host) {t : Str} {p : List Str} (h : AssignsPath u t p) :
    AssignsPath { u with host := g } t p := by
  cases h with
  | none h hh => exact .none h (fun hg => hh ((hostSim_none e).1 hg))
  | root h => exact .root (h.imp id (hostSim_none e).2)
  | slash s t h => exact .slash (u := { u with host := g }) s t h
  | bare t hne h => exact .bare (u := { u with host := g }) _ hne h

private theorem stripOpaque_host (u : Rec) (g : Option Host) :
    Spec.stripOpaque { u with host := g } = { Spec.stripOpaque u with host := g } ∧ (Spec.stripOpaque u).host = u.host := by
  cases u with | mk a b c d e p q f =>
  cases p with
  | list l => exact ⟨rfl, rfl⟩
  | «opaque» s =>
    unfold Spec.stripOpaque
    dsimp only
    split <;> exact ⟨rfl, rfl⟩

private theorem twin_strip (u : Rec) {g : Option Host} (e : HostSim g u.host) :
    Twin (Spec.stripOpaque u) (Spec.stripOpaque { u with host := g }) :=
  ⟨g, (stripOpaque_host u g).1, by rw [(stripOpaque_host u g).2]; exact e⟩

private theorem assigns_sim {env : Env} {u : Rec} {g : Option Host} (e : HostSim g u.host) {op : Op} {x : Except Err Unit} {w : Rec}
    (h : Assigns env u op x w) : ∃ w', Assigns env { u with host := g } op x w' ∧ Twin w w' := by
  cases h with
  | href v w h => exact ⟨w, .href v w h, Twin.refl w⟩
  | hrefRefused v er h => exact ⟨_, .hrefRefused v er h, g, rfl, e⟩
  | protocol v sc r hsc hv h => exact ⟨_, .protocol v sc r hsc hv ((replaceable_sim e _).2 h), g, rfl, e⟩
  | protocolKept v sc r hsc hv h => exact ⟨_, .protocolKept v sc r hsc hv (mt (replaceable_sim e _).1 h), g, rfl, e⟩
  | protocolRefused v h => exact ⟨_, .protocolRefused v h, g, rfl, e⟩
  | username v h => exact ⟨_, .username v (mt (upp_sim e).1 h), g, rfl, e⟩
  | usernameKept v h => exact ⟨_, .usernameKept v ((upp_sim e).2 h), g, rfl, e⟩
  | password v h => exact ⟨_, .password v (mt (upp_sim e).1 h), g, rfl, e⟩
  | passwordKept v h => exact ⟨_, .passwordKept v ((upp_sim e).2 h), g, rfl, e⟩
  | host v x w hp h =>
    obtain ⟨w', h1, h2⟩ := assignsHost_sim e h
    exact ⟨w', .host v _ w' hp h1, h2⟩
  | hostKept v p hp => exact ⟨_, .hostKept v p hp, g, rfl, e⟩
  | hostname v x w hp h =>
    obtain ⟨w', h1, h2⟩ := assignsHost_sim e h
    exact ⟨w', .hostname v _ w' hp h1, h2⟩
  | hostnameKept v p hp => exact ⟨_, .hostnameKept v p hp, g, rfl, e⟩
  | portOff h => exact ⟨_, .portOff (mt (upp_sim e).1 h), g, rfl, e⟩
  | port v x w hc hv h =>
    obtain ⟨w', h1, h2⟩ := assignsPort_sim e h
    exact ⟨w', .port v _ w' (mt (upp_sim e).1 hc) hv h1, h2⟩
  | portKept v h => exact ⟨_, .portKept v ((upp_sim e).2 h), g, rfl, e⟩
  | pathname v p hp h => exact ⟨_, .pathname v p hp (assignsPath_sim e h), g, rfl, e⟩
  | pathnameKept v p hp => exact ⟨_, .pathnameKept v p hp, g, rfl, e⟩
  | searchOff => exact ⟨_, .searchOff, twin_strip { u with query := none } e⟩
  | search v t hv h => exact ⟨_, .search v t hv h, g, rfl, e⟩
  | hashOff => exact ⟨_, .hashOff, twin_strip { u with fragment := none } e⟩
  | hash v t hv h => exact ⟨_, .hash v t hv h, g, rfl, e⟩

private theorem twin_query {u v : Rec} (h : Twin u v) : v.query = u.query := by
  obtain ⟨g, rfl, -⟩ := h
  rfl

private theorem twin_params {env : Env} {o o' : URLObj} (h : Reached env o) (h' : Reached env o') (ht : Twin o.url o'.url) :
    o.params = o'.params := by
  rw [C48_params_standard env o h, C48_params_standard env o' h', twin_query ht]

private theorem spUpdate_sim (l : Params) (u : Rec) {g : Option Host} (e : HostSim g u.host) :
    Twin (spUpdate l u) (spUpdate l { u with host := g }) := by
  unfold spUpdate potentiallyRstrip
  dsimp only
  split
  · split
    · exact ⟨g, rfl, e⟩
    · exact ⟨g, rfl, e⟩
  · exact ⟨g, rfl, e⟩

private theorem mutate_sim {env : Env} {o o' : URLObj} (h : Reached env o) (h' : Reached env o') (ht : Twin o.url o'.url)
    (f : Params → Params) :
    (spMutate o (f o.params)).1 = (spMutate o' (f o'.params)).1 ∧ Twin (spMutate o (f o.params)).2.url (spMutate o' (f o'.params)).2.url := by
  refine ⟨rfl, ?_⟩
  rw [twin_params h h' ht]
  obtain ⟨g, e1, e2⟩ := ht
  show Twin (spUpdate _ o.url) (spUpdate _ o'.url)
  rw [e1]
  exact spUpdate_sim _ _ e2

private theorem op_sim {env : Env} {o o' : URLObj} (h : Reached env o) (h' : Reached env o') (ht : Twin o.url o'.url) {op : Op}
    (hop : op.IsStr) : (applyOp env o op).1 = (applyOp env o' op).1 ∧ Twin (applyOp env o op).2.url (applyOp env o' op).2.url := by
  have key : Assignment op → (applyOp env o op).1 = (applyOp env o' op).1 ∧ Twin (applyOp env o op).2.url (applyOp env o' op).2.url := by
    intro ha
    have h1 := ((C92_assign env o h op ha _ _).1 rfl).1
    have h2 := ((C92_assign env o' h' op ha _ _).1 rfl).1
    obtain ⟨g, e1, e2⟩ := ht
    obtain ⟨w, k1, k2⟩ := assigns_sim e2 h1
    rw [← e1] at k1
    obtain ⟨r1, r2⟩ := C92_unique env o' h' op ha _ _ _ _ k1 h2
    rw [r2] at k2
    exact ⟨r1, k2⟩
  cases op with
  | spAppend n v => exact mutate_sim h h' ht (fun l => Urlstd.spAppend l n v)
  | spDelete n v => exact mutate_sim h h' ht (fun l => Urlstd.spDelete l n v)
  | spSet n v => exact mutate_sim h h' ht (fun l => Urlstd.spSet l n v)
  | spSort => exact mutate_sim h h' ht Urlstd.spSort
  | _ => exact key hop

/-- what a sequence of operations raises, one after the other -/
def answers (env : Env) : URLObj → List Op → List (Except Err Unit)
  | _, [] => []
  | o, op :: ops => (applyOp env o op).1 :: answers env (applyOp env o op).2 ops

private theorem ops_sim {env : Env} (ops : List Op) : ∀ {o o' : URLObj}, Reached env o → Reached env o' → Twin o.url o'.url →
    (∀ op ∈ ops, op.IsStr) → answers env o ops = answers env o' ops ∧ Twin (applyOps env o ops).url (applyOps env o' ops).url ∧
      (applyOps env o ops).params = (applyOps env o' ops).params := by
  induction ops with
  | nil => intro o o' h h' ht _; exact ⟨rfl, ht, twin_params h h' ht⟩
  | cons op ops ih =>
    intro o o' h h' ht hops
    have hop := hops op List.mem_cons_self
    obtain ⟨a, b⟩ := op_sim h h' ht hop
    obtain ⟨c, d, e⟩ := ih (.op h hop) (.op h' hop) b (fun p hp => hops p (List.mem_cons_of_mem _ hp))
    refine ⟨?_, d, e⟩
    unfold answers
    rw [a, c]

private theorem twin_equals {u v : Rec} (h : Twin u v) : u.equals v = true := by
  obtain ⟨g, rfl, e⟩ := h
  simp only [Rec.equals, beq_iff_eq]
  rw [← serialize_canon u, ← serialize_canon { u with host := g }]
  unfold Rec.canon
  dsimp only
  rw [show g.map Host.canon = u.host.map Host.canon from e]

/-- C111. Equal URLs stay equal: whatever assignments and operations on the search parameters are done, in whatever order, the same
ones on both, each of them raises the same exception (or none) for both, and the URLs are equal afterwards and have the same search
parameters. The URLs may have any past. -/
theorem C111_lockstep (env : Env) (he : EnvOK env) (hi : IdnaOK env) (o o' : URLObj) (h : Reached env o) (h' : Reached env o')
    (heq : o.url.equals o'.url = true) (ops : List Op) (hops : ∀ op ∈ ops, op.IsStr) :
    answers env o ops = answers env o' ops ∧ (applyOps env o ops).url.equals (applyOps env o' ops).url = true ∧
      (applyOps env o ops).params = (applyOps env o' ops).params := by
  obtain ⟨h1, h2, h3, h4, h5, h6, h7, h8⟩ := C57_equal_components env he hi o o' h h' heq
  have ht : Twin o.url o'.url := by
    refine ⟨o'.url.host, ?_, ?_⟩
    · cases o with | mk u l =>
      cases o' with | mk u' l' =>
      cases u
      cases u'
      dsimp only at h1 h2 h3 h4 h5 h6 h7 ⊢
      subst h1 h2 h3 h4 h5 h6 h7
      rfl
    · unfold HostSim
      rcases h8 with e | ⟨m, n, e1, e2, e3⟩
      · rw [e]
      · rw [e1, e2]
        show some (Host.ipv4 (n % 2 ^ 32)) = some (Host.ipv4 (m % 2 ^ 32))
        rw [e3]
  obtain ⟨a, b, c⟩ := ops_sim ops h h' ht hops
  exact ⟨a, twin_equals b, c⟩

/-- "http://256.256/a" and "http://0.0.1.0/a" -/
private def big : URLObj := ⟨{ scheme := u!"http", host := some (.ipv4 (2 ^ 32 + 256)), path := .list [u!"a"] }, []⟩
private def small : URLObj := ⟨{ scheme := u!"http", host := some (.ipv4 256), path := .list [u!"a"] }, []⟩

/-- "http://256.256/a" and "http://0.0.1.0/a", some assignments of which one fails, and an operation on the search parameters -/
example : answers exEnv big [.port u!"99999", .spAppend u!"k" (.str u!"v"), .protocol u!"ftp"] =
      answers exEnv small [.port u!"99999", .spAppend u!"k" (.str u!"v"), .protocol u!"ftp"] ∧
    (applyOps exEnv big [.port u!"99999", .spAppend u!"k" (.str u!"v"), .protocol u!"ftp"]).url.equals
      (applyOps exEnv small [.port u!"99999", .spAppend u!"k" (.str u!"v"), .protocol u!"ftp"]).url = true ∧
    (applyOps exEnv big [.port u!"99999", .spAppend u!"k" (.str u!"v"), .protocol u!"ftp"]).params =
      (applyOps exEnv small [.port u!"99999", .spAppend u!"k" (.str u!"v"), .protocol u!"ftp"]).params :=
  C111_lockstep exEnv (.inr (by decide)) exEnv_idna big small (.new (s := u!"http://256.256/a") (by decide) (by decide +kernel))
    (.new (s := u!"http://0.0.1.0/a") (by decide) (by decide +kernel))
    (by decide +kernel) _ (by
      intro op h
      simp only [List.mem_cons, List.not_mem_nil, or_false] at h
      rcases h with rfl | rfl | rfl
      · exact (by decide : IsStr u!"99999")
      · exact (by decide : IsStr u!"k" ∧ IsStr u!"v")
      · exact (by decide : IsStr u!"ftp"))

end Urlstd.Props
