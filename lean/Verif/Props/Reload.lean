/-
C112: nothing is lost when a URL is stored as its `href`.
-/
import Verif.Props.Generic
import Verif.Props.Lockstep

namespace Urlstd.Props

open Spec (IsStr Deviant)

/-- two URL objects show the same: all attributes, the search parameters and the origin agree -/
def Alike (env : Env) (a b : URLObj) : Prop :=
  a.href = b.href ∧ a.protocol = b.protocol ∧ a.username = b.username ∧ a.password = b.password ∧ a.host = b.host ∧
    a.hostname = b.hostname ∧ a.port = b.port ∧ a.pathname = b.pathname ∧ a.search = b.search ∧ a.hash = b.hash ∧
    a.params = b.params ∧ a.origin env = b.origin env

private theorem href_str {env : Env} (hi : IdnaOK env) {o : URLObj} (h : Reached env o) : IsStr o.href := by
  intro c hc
  have := (C45_printable env hi o h).1 c hc
  unfold Spec.Printable at this
  omega

private theorem alike_of {env : Env} (hi : IdnaOK env) {a b : URLObj} (ha : Reached env a) (hb : Reached env b) (h : a.href = b.href) :
    Alike env a b :=
  ⟨h, C85_href_determines env hi a b ha hb h⟩

private theorem run_reached {env : Env} (ops : List Op) : ∀ {o : URLObj}, Reached env o → (∀ op ∈ ops, op.IsStr) → Reached env (applyOps env o ops) := by
  induction ops with
  | nil => intro o h _; exact h
  | cons op ops ih =>
    intro o h hops
    exact ih (.op h (hops op List.mem_cons_self)) fun p hp => hops p (List.mem_cons_of_mem _ hp)

/-- C112. Nothing is lost when a URL is stored as its `href`: unless it is one of the deviant URLs of C46, whatever its past, parsing
the `href` gives an object that cannot be told from it. Whatever is done with both, the same exceptions are raised, afterwards all
attributes, the search parameters and the origin agree, and as bases the two fail in the same way or lead to URLs that agree again. -/
theorem C112_reload (env : Env) (he : EnvOK env) (hi : IdnaOK env) (o : URLObj) (h : Reached env o) (hd : ¬ Deviant o.url) :
    ∃ o', URLObj.new env o.href = .ok o' ∧ ∀ ops, (∀ op ∈ ops, op.IsStr) →
      answers env o ops = answers env o' ops ∧ Alike env (applyOps env o ops) (applyOps env o' ops) ∧
      ∀ s, IsStr s →
        (∃ e, URLObj.new env s (.url (applyOps env o ops)) = .error e ∧ URLObj.new env s (.url (applyOps env o' ops)) = .error e) ∨
        ∃ a b, URLObj.new env s (.url (applyOps env o ops)) = .ok a ∧ URLObj.new env s (.url (applyOps env o' ops)) = .ok b ∧ Alike env a b := by
  obtain ⟨o', h1, h2⟩ := (C46_exact env he hi o h).2 hd
  have h' : Reached env o' := .new (href_str hi h) h1
  refine ⟨o', h1, fun ops hops => ?_⟩
  obtain ⟨a, b, -⟩ := C111_lockstep env he hi o o' h h' ((C57_equals_href o o').2 h2.symm) ops hops
  have r := run_reached ops h hops
  have r' := run_reached ops h' hops
  refine ⟨a, alike_of hi r r' ((C57_equals_href _ _).1 b), fun s hs => ?_⟩
  rcases C110_base env he hi _ _ r r' b s hs with e | ⟨x, y, e1, e2, e3, -⟩
  · exact .inl e
  · exact .inr ⟨x, y, e1, e2, alike_of hi (.newUrl hs r e1) (.newUrl hs r' e2) ((C57_equals_href _ _).1 e3)⟩

/-- C112. For the deviant URLs it is lost at once: parsing the `href` fails or gives an object with another `href`. -/
theorem C112_exact (env : Env) (he : EnvOK env) (hi : IdnaOK env) (o : URLObj) (h : Reached env o) :
    (∃ o', URLObj.new env o.href = .ok o' ∧ Alike env o o') ↔ ¬ Deviant o.url := by
  constructor
  · rintro ⟨o', h1, h2⟩
    exact (C46_exact env he hi o h).1 ⟨o', h1, h2.1.symm⟩
  · intro hd
    obtain ⟨o', h1, h2⟩ := (C46_exact env he hi o h).2 hd
    exact ⟨o', h1, alike_of hi h (.new (href_str hi h) h1) h2.symm⟩

/-- "http://256.256/a", whose host is stored as a number of more than 32 bits, and an assignment that fails -/
private def wide : URLObj := ⟨{ scheme := u!"http", host := some (.ipv4 (2 ^ 32 + 256)), path := .list [u!"a"] }, []⟩

private theorem wide_reached : Reached exEnv wide := .new (s := u!"http://256.256/a") (by decide) (by decide +kernel)

private theorem wide_plain : ¬ Deviant wide.url := by rintro (⟨h, _⟩ | ⟨h, _⟩) <;> exact absurd h (by decide)

example : ∃ o', URLObj.new exEnv wide.href = .ok o' ∧ o' ≠ wide ∧ answers exEnv wide [.port u!"99999"] = answers exEnv o' [.port u!"99999"] := by
  obtain ⟨o', h1, h2⟩ := C112_reload exEnv (.inr (by decide)) exEnv_idna wide wide_reached wide_plain
  refine ⟨o', h1, ?_, (h2 [.port u!"99999"] ?_).1⟩
  · intro e
    rw [e] at h1
    exact absurd h1 (by decide +kernel)
  · intro op h
    simp only [List.mem_cons, List.not_mem_nil, or_false] at h
    rw [h]
    exact (by decide : IsStr u!"99999")

end Urlstd.Props
