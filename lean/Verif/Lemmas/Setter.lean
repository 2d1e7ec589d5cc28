/-
What each attribute setter of `URL` computes, in closed form.
-/
import Verif.Lemmas.RoundTrip2
import Verif.Url

set_option linter.unusedSimpArgs false
set_option linter.unusedVariables false

namespace Urlstd

theorem setterParse_eq (env : Env) (o : URLObj) (url : Rec) (value : Str) (ov : PState) :
    setterParse env o url value ov =
      ((eval env.quiet .utf8 none (some ov) ov (removeTabNewline value) url).1,
        { o with url := (eval env.quiet .utf8 none (some ov) ov (removeTabNewline value) url).2 }) := by
  have := basicParse_eval env.quiet value none .utf8 (some url) (some ov)
  simp only [Option.getD_some] at this
  unfold setterParse
  dsimp only
  rw [← prepared_some value url, ← this]

/-! ### hash -/

theorem eval_fragment_nil {env : Env} {e : Encoding} {base : Option Rec} {ov : Option PState} (url : Rec) :
    eval env e base ov .fragment [] url = (.ok (), url) := by
  rw [eval_step _ _ _ _ (by decide)]
  exact eval_eof ..

theorem utf8PercentEncode_nil (safe : Nat → Bool) : utf8PercentEncode [] safe = [] := encode_fixed (by simp)

/-- `hash` -/
theorem setHash_eq (env : Env) (o : URLObj) (v : Str) (hv : v ≠ []) :
    setHash env o v = (.ok (), { o with url := { o.url with
      fragment := some (utf8PercentEncode (removeTabNewline (dropLead c!"#" v)) safeFragment) } }) := by
  unfold setHash
  rw [if_neg (by simpa using hv), setterParse_eq]
  generalize removeTabNewline (dropLead 35 v) = t
  rw [eval_step _ _ _ _ (by decide)]
  have : (sstep env.quiet .utf8 none (some .fragment) .fragment t { o.url with fragment := some [] }).andThen env.quiet
      .utf8 none (some .fragment) =
      (.ok (), { o.url with fragment := some (utf8PercentEncode t safeFragment) }) := by
    show (sFragment t { o.url with fragment := some [] }).andThen env.quiet .utf8 none (some .fragment) = _
    unfold sFragment
    cases t with
    | nil => rw [if_pos (by rfl), utf8PercentEncode_nil]; exact eval_eof ..
    | cons c cs => rw [if_neg (by simp)]; exact eval_eof ..
  rw [this]

/-! ### search -/

theorem encodeQuery_empty (u : Rec) : encodeQuery .utf8 u [] = [] := by
  unfold encodeQuery; rw [ite_self]; exact utf8PercentEncode_nil _

/-- `search` -/
theorem setSearch_eq (env : Env) (o : URLObj) (v : Str) (hv : v ≠ []) :
    setSearch env o v = (.ok (),
      ⟨{ o.url with query := some (encodeQuery .utf8 o.url (removeTabNewline (dropLead c!"?" v))) },
        spOfQuery (some (encodeQuery .utf8 o.url (removeTabNewline (dropLead c!"?" v))))⟩) := by
  unfold setSearch
  rw [if_neg (by simpa using hv), setterParse_eq]
  generalize removeTabNewline (dropLead 63 v) = t
  rw [eval_step _ _ _ _ (by decide)]
  have : (sstep env.quiet .utf8 none (some .query) .query t { o.url with query := some [] }).andThen env.quiet
      .utf8 none (some .query) =
      (.ok (), { o.url with query := some (encodeQuery .utf8 o.url t) }) := by
    show (sQuery .utf8 (some .query) t { o.url with query := some [] }).andThen env.quiet .utf8 none (some .query) = _
    unfold sQuery
    dsimp only
    have e1 : queryText (some PState.query).isSome t = t := rfl
    have e2 : queryRest (some PState.query).isSome t = [] := rfl
    rw [e1, e2]
    cases t with
    | nil =>
      rw [if_pos (by rfl), encodeQuery_empty]
      exact eval_fragment_nil _
    | cons c cs =>
      rw [if_neg (by simp), if_pos (by rfl)]
      exact eval_fragment_nil _
  rw [this]

/-! ### pathname -/

/-- the segments the `pathname` setter computes -/
def pathnameSegs (u : Rec) (t : Str) : List Str :=
  match t with
  | [] => if u.isSpecial || u.host.isNone then [[]] else []
  | c :: cs =>
    addPieces u.scheme [] (pathPieces u.isSpecial (if isPathSep u.isSpecial c then cs else c :: cs))

theorem eval_path_ov (env : Env) (u : Rec) (t : Str) :
    eval env .utf8 none (some .pathStart) .path t { u with path := .list [] } =
      (.ok (), { u with path := .list (addPieces u.scheme [] (pathPieces u.isSpecial t)) }) := by
  rw [eval_step _ _ _ _ (by decide)]
  show (sPath (some .pathStart) t { u with path := .list [] }).andThen env .utf8 none (some .pathStart) = _
  unfold sPath
  dsimp only
  have e1 : pathText (some PState.pathStart).isSome t = t := rfl
  have e2 : pathRest (some PState.pathStart).isSome t = [] := rfl
  rw [e1, e2]
  exact eval_opaquePath_nil _

/-- `pathname` -/
theorem setPathname_eq (env : Env) (o : URLObj) (v : Str) (ho : o.url.hasOpaquePath = false) :
    setPathname env o v = (.ok (),
      { o with url := { o.url with path := .list (pathnameSegs o.url (removeTabNewline v)) } }) := by
  unfold setPathname
  rw [if_neg (by simp [ho]), setterParse_eq]
  generalize removeTabNewline v = t
  rw [eval_step _ _ _ _ (by decide)]
  have : (sstep env.quiet .utf8 none (some .pathStart) .pathStart t { o.url with path := .list [] }).andThen env.quiet
      .utf8 none (some .pathStart) =
      (.ok (), { o.url with path := .list (pathnameSegs o.url t) }) := by
    show (sPathStart (some .pathStart) t { o.url with path := .list [] }).andThen env.quiet .utf8 none (some .pathStart) = _
    have hsp : ({ o.url with path := .list [] } : Rec).isSpecial = o.url.isSpecial := rfl
    unfold sPathStart pathnameSegs
    rw [hsp]
    cases t with
    | nil =>
      dsimp only
      by_cases h1 : o.url.isSpecial
      · rw [if_pos h1, if_pos (by simp [h1])]
        show eval _ _ _ _ _ _ _ = _
        rw [eval_path_ov]
        have : addPieces o.url.scheme [] (pathPieces o.url.isSpecial []) = [[]] := by
          show addSegment o.url.scheme [] [] false = [[]]
          unfold addSegment
          dsimp only
          rw [utf8PercentEncode_nil]
          simp [isDoubleDot, isSingleDot, isWindowsDriveLetter]
        rw [this]
      · rw [if_neg h1]
        by_cases h2 : o.url.host.isNone
        · rw [if_pos (by simp [h2]), if_pos (by simp [h2])]
          exact eval_eof ..
        · rw [if_neg (by simp [h2]), if_neg (by simp [h1, h2])]
          exact eval_eof ..
    | cons c cs =>
      dsimp only
      by_cases h1 : isPathSep o.url.isSpecial c
      · rw [if_pos h1, if_pos h1]
        exact eval_path_ov ..
      · rw [if_neg h1, if_neg h1]
        by_cases h2 : o.url.isSpecial
        · rw [if_pos h2]
          exact eval_path_ov ..
        · rw [if_neg h2, if_neg (by simp), if_neg (by simp)]
          exact eval_path_ov ..
  rw [this]

/-! ### port -/

/-- what `_parse_port` makes of the leading digits of the assigned text -/
def portOut (env : Env) (u : Rec) (digits : Str) : Except Err Unit × Rec :=
  if digits.isEmpty then (.ok (), u)
  else
    match pyInt env 10 digits with
    | none => (.error .valueError, u)
    | some v =>
      if v.toNat > 0xFFFF then (.error .urlParse, u)
      else (.ok (), { u with port := if isDefaultPort u.scheme v.toNat then none else some v.toNat })

theorem eval_port_ov (env : Env) (ov : PState) (u : Rec) (t : Str) :
    eval env .utf8 none (some ov) .port t u = portOut env u (t.takeWhile isDigit) := by
  rw [eval_step _ _ _ _ (by decide)]
  show (sPort env (some ov) t u).andThen env .utf8 none (some ov) = _
  unfold sPort portOut
  have key : ∀ r, (sPortEnd env (some ov).isSome (t.takeWhile isDigit) r u).andThen env .utf8 none (some ov) =
      portOut env u (t.takeWhile isDigit) := by
    intro r
    unfold sPortEnd portOut
    dsimp only
    split
    · exact eval_eof ..
    · cases pyInt env 10 (t.takeWhile isDigit) with
      | none => rfl
      | some v =>
        dsimp only
        split
        · rfl
        · exact eval_eof ..
  unfold portOut at key
  unfold sPortGo
  cases t.dropWhile isDigit with
  | nil => exact key []
  | cons c cs =>
    dsimp only
    rw [if_pos (by simp)]
    exact key _

/-- `port` -/
theorem setPort_eq (env : Env) (o : URLObj) (v : Str) (hu : o.url.cannotHaveUPP = false) (hv : v ≠ []) :
    setPort env o v = ((portOut env.quiet o.url ((removeTabNewline v).takeWhile isDigit)).1,
      { o with url := (portOut env.quiet o.url ((removeTabNewline v).takeWhile isDigit)).2 }) := by
  unfold setPort
  rw [if_neg (by simp [hu]), if_neg (by simpa using hv), setterParse_eq, eval_port_ov]

/-! ### protocol -/

/-- `protocol` -/
theorem setProtocol_eq (env : Env) (o : URLObj) (v : Str) :
    setProtocol env o v =
      match takeScheme (removeTabNewline (v ++ u!":")) with
      | none => (.error .urlParse, o)
      | some (sc, _) => (.ok (), { o with url := overrideScheme o.url sc }) := by
  unfold setProtocol
  rw [setterParse_eq]
  generalize removeTabNewline (v ++ u!":") = t
  rw [eval_step _ _ _ _ (by decide)]
  have : (sstep env.quiet .utf8 none (some .schemeStart) .schemeStart t o.url).andThen env.quiet
      .utf8 none (some .schemeStart) =
      match takeScheme t with
      | none => (.error .urlParse, o.url)
      | some (sc, _) => (.ok (), overrideScheme o.url sc) := by
    show (sScheme none (some .schemeStart) t o.url).andThen env.quiet .utf8 none (some .schemeStart) = _
    unfold sScheme
    cases takeScheme t with
    | none => rfl
    | some x => exact eval_eof ..
  rw [this]
  cases takeScheme t <;> rfl

/-! ### host, hostname -/

/-- what `_parse_host` makes of a host text under a state override -/
def hostEndOut (env : Env) (u : Rec) (b : Str) : Except Err Unit × Rec :=
  if u.isSpecial && b.isEmpty then (.error .urlParse, u)
  else if b.isEmpty && (u.includesCredentials || u.portTruthy) then (.ok (), u)
  else
    match (hostParse env b (!u.isSpecial)).res with
    | .error e => (.error e, u)
    | .ok h => (.ok (), { u with host := some h })

/-- what the `host` (`ov = host`) and `hostname` setters compute for a scheme other than "file" -/
def hostOut (env : Env) (ov : PState) (u : Rec) (b r : Str) : Except Err Unit × Rec :=
  match r with
  | [] => hostEndOut env u b
  | c :: cs =>
    if c = c!":" then
      if b.isEmpty then (.error .urlParse, u)
      else if ov = .hostname then (.ok (), u)
      else
        match (hostParse env b (!u.isSpecial)).res with
        | .error e => (.error e, u)
        | .ok h => portOut env { u with host := some h } (cs.takeWhile isDigit)
    else hostEndOut env u b

/-- what they compute for the scheme "file" -/
def fileHostOut (env : Env) (u : Rec) (b : Str) : Except Err Unit × Rec :=
  if b.isEmpty then (.ok (), { u with host := some (.str []) })
  else
    match (hostParse env b (!u.isSpecial)).res with
    | .error e => (.error e, u)
    | .ok h => (.ok (), { u with host := some (if h = .str u!"localhost" then .str [] else h) })

/-- what the `host` and `hostname` setters make of the record -/
def hostSetOut (env : Env) (ov : PState) (u : Rec) (t : Str) : Except Err Unit × Rec :=
  if u.scheme = u!"file" then fileHostOut env u (t.takeWhile notFileHostEnd)
  else hostOut env ov u (hostSpan u.isSpecial false t).1 (hostSpan u.isSpecial false t).2

theorem eval_host_ov (env : Env) (ov st : PState) (hst : st = .host ∨ st = .hostname) (u : Rec) (t : Str) :
    eval env .utf8 none (some ov) st t u = hostSetOut env ov u t := by
  have hs : sstep env .utf8 none (some ov) st t u = sHost env (some ov) t u := by rcases hst with rfl | rfl <;> rfl
  rw [eval_step _ _ _ _ (by rcases hst with rfl | rfl <;> decide), hs]
  unfold sHost hostSetOut
  by_cases hf : u.scheme = u!"file"
  · rw [if_pos (by simp [hf]), if_pos hf]
    show eval env .utf8 none (some ov) .fileHost t u = _
    rw [eval_step _ _ _ _ (by decide)]
    show (sFileHost env (some ov) t u).andThen env .utf8 none (some ov) = _
    unfold sFileHost sFileHostEnd fileHostOut
    rw [if_neg (by simp)]
    split
    · exact eval_eof ..
    · cases (hostParse env (t.takeWhile notFileHostEnd) (!u.isSpecial)).res with
      | error e => rfl
      | ok h => exact eval_eof ..
  · rw [if_neg (by simp [hf]), if_neg hf]
    dsimp only
    generalize (hostSpan u.isSpecial false t).1 = b
    generalize (hostSpan u.isSpecial false t).2 = r
    have key : ∀ r', (sHostEnd env (some ov).isSome b r' u).andThen env .utf8 none (some ov) = hostEndOut env u b := by
      intro r'
      unfold sHostEnd hostEndOut
      split
      · rfl
      · by_cases h : (b.isEmpty && (u.includesCredentials || u.portTruthy)) = true
        · rw [if_pos h, if_pos (show ((some ov).isSome && b.isEmpty && _) = true from h)]; exact eval_eof ..
        · rw [if_neg h, if_neg (show ¬ ((some ov).isSome && b.isEmpty && _) = true from h)]
          cases (hostParse env b (!u.isSpecial)).res with
          | error e => rfl
          | ok h => exact eval_eof ..
    unfold sHostGo hostOut
    cases r with
    | nil => exact key []
    | cons c cs =>
      dsimp only
      split
      · split
        · rfl
        · by_cases ho : ov = .hostname
          · rw [if_pos (by rw [ho]), if_pos ho]; exact eval_eof ..
          · rw [if_neg (by simpa using ho), if_neg ho]
            cases (hostParse env b (!u.isSpecial)).res with
            | error e => rfl
            | ok h => exact eval_port_ov ..
      · exact key _

theorem setHost_eq (env : Env) (o : URLObj) (v : Str) (ho : o.url.hasOpaquePath = false) :
    setHost env o v = ((hostSetOut env.quiet .host o.url (removeTabNewline v)).1,
      { o with url := (hostSetOut env.quiet .host o.url (removeTabNewline v)).2 }) := by
  unfold setHost
  rw [if_neg (by simp [ho]), setterParse_eq, eval_host_ov _ _ _ (.inl rfl)]

theorem setHostname_eq (env : Env) (o : URLObj) (v : Str) (ho : o.url.hasOpaquePath = false) :
    setHostname env o v = ((hostSetOut env.quiet .hostname o.url (removeTabNewline v)).1,
      { o with url := (hostSetOut env.quiet .hostname o.url (removeTabNewline v)).2 }) := by
  unfold setHostname
  rw [if_neg (by simp [ho]), setterParse_eq, eval_host_ov _ _ _ (.inr rfl)]

end Urlstd
