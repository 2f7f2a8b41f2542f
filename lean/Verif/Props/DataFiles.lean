import Verif.Model.DataFiles
/-!
C137–C140: what the scripts that make the training data do.
-/
namespace MJ.Data

/-! ### C137: the links of a page -/

/-- an opening tag `<a href="u">`, with the blanks `w` and the other attributes `b` -/
structure Link where
  w : Text
  q : Char
  u : Text
  q' : Char
  b : Text

/-- the text of the tag -/
def Link.text (l : Link) : Text :=
  '<' :: 'a' :: (l.w ++ ('h' :: 'r' :: 'e' :: 'f' :: '=' :: l.q :: (l.u ++ (l.q' :: (l.b ++ ['>'])))))

/-- the two quotation marks of HTML -/
def Spec.quotes : List Char := ['\'', '"']

/-- the blanks of HTML: tab, line feed, form feed, carriage return and space -/
def Spec.blanks : List Char := ['\t', '\n', '\x0c', '\r', ' ']

theorem isQuote_iff (c : Char) : isQuote c = true ↔ c ∈ Spec.quotes := by
  simp [isQuote, Spec.quotes]

/-- blanks are blanks, quotes are quotes, the address has no quote and stays on its line, and so do the other
attributes, which have no `>` -/
structure Link.Ok (l : Link) : Prop where
  w_ne : l.w ≠ []
  w : ∀ c ∈ l.w, c ∈ Spec.blanks
  q : l.q ∈ Spec.quotes
  q' : l.q' ∈ Spec.quotes
  u : ∀ c ∈ l.u, c ∉ Spec.quotes ∧ c ≠ '\n'
  b : ∀ c ∈ l.b, c ≠ '>' ∧ c ≠ '\n'

/-- a text with no start of an `<a …>` tag -/
def Plain : Text → Prop
  | [] => True
  | c :: s => (c ≠ '<' ∨ s.head? ≠ some 'a') ∧ Plain s

/-- a page: a text, then links with a text behind each -/
def page (t : Text) (ls : List (Link × Text)) : Text := t ++ ls.flatMap (fun x => x.1.text ++ x.2)

theorem anchors_nil_of_not {s : Text} (h : ['<', 'a'].isPrefixOf s = false) : anchors s = [] := by
  simp [anchors, lit, h]

/-- a greedy loop over blanks that end stops behind them first -/
theorem greedy_head (p : Char → Bool) (w : Text) (c : Char) (s : Text) (hw : ∀ x ∈ w, p x = true) (hc : p c = false) :
    ∃ r, greedy p (w ++ c :: s) = (c :: s) :: r := by
  induction w with
  | nil => exact ⟨[], by simp [greedy, hc]⟩
  | cons x w ih =>
    obtain ⟨r, hr⟩ := ih (fun y hy => hw y (List.mem_cons_of_mem _ hy))
    exact ⟨r ++ [x :: (w ++ c :: s)], by simp [greedy, hw x (List.mem_cons_self ..), hr]⟩

/-- a lazy loop goes on until what follows it matches: `k` fails inside `u` and has `r` as its first match behind -/
theorem lazy_head {β : Type} (p : Char → Bool) (k : Text × Text → List β) (u s : Text) (r : β)
    (pre : Text) (hu : ∀ x ∈ u, p x = true)
    (hk : ∀ a b, u = a ++ b → b ≠ [] → k (pre ++ a, b ++ s) = [])
    (hr : (k (pre ++ u, s)).head? = some r) :
    ((lazy p (u ++ s)).flatMap (fun x => k (pre ++ x.1, x.2))).head? = some r := by
  induction u generalizing pre with
  | nil =>
    cases s with
    | nil => simpa [lazy] using hr
    | cons c s =>
      simp only [List.append_nil] at hr
      simp [lazy, hr]
  | cons x u ih =>
    have h1 := ih (pre ++ [x]) (fun y hy => hu y (List.mem_cons_of_mem _ hy))
      (fun a b hab hb => by simpa using hk (x :: a) b (by simp [hab]) hb) (by simpa using hr)
    have h0 := hk [] (x :: u) rfl (by simp)
    simp only [List.append_nil, List.cons_append] at h0
    simp only [List.cons_append, lazy, hu x (List.mem_cons_self ..), if_true, List.flatMap_cons, List.append_nil, h0,
      List.nil_append, List.flatMap_map]
    simpa using h1

theorem head_flatMap {α β : Type} (f : α → List β) (a : α) (r : List α) (b : β) (h : (f a).head? = some b) :
    ((a :: r).flatMap f).head? = some b := by
  simp only [List.flatMap_cons, List.head?_append, h, Option.some_or]

/-- at a link, the first match is the link -/
theorem anchors_link (l : Link) (h : l.Ok) (s : Text) : (anchors (l.text ++ s)).head? = some (l.u, s) := by
  have hbl : ∀ c ∈ Spec.blanks, isSpace c = true := by decide
  have hq := (isQuote_iff l.q).mpr h.q
  have hq' := (isQuote_iff l.q').mpr h.q'
  obtain ⟨w0, w, hw⟩ := List.exists_cons_of_ne_nil h.w_ne
  have hsp : isSpace w0 = true := hbl _ (h.w w0 (by simp [hw]))
  have hsp' : ∀ c ∈ w, isSpace c = true := fun c hc => hbl _ (h.w c (by simp [hw, hc]))
  have hh : isSpace 'h' = false := by decide
  simp only [anchors, Link.text, hw, List.cons_append, List.append_assoc, lit, List.isPrefixOf, beq_self_eq_true,
    Bool.true_and, if_true, List.length_cons, List.length_nil, List.drop_succ_cons, List.drop_zero,
    List.flatMap_cons, List.flatMap_nil, List.append_nil, oneOf, hsp]
  obtain ⟨r, hr⟩ := greedy_head isSpace w 'h' ('r' :: 'e' :: 'f' :: '=' :: l.q :: (l.u ++ (l.q' :: (l.b ++ '>' :: s))))
    hsp' hh
  simp only [List.nil_append] at hr ⊢
  rw [hr]
  apply head_flatMap
  simp only [lazy]
  apply head_flatMap
  simp only [List.isPrefixOf, beq_self_eq_true, Bool.true_and, if_true,
    List.drop_succ_cons, List.drop_zero, List.flatMap_cons, List.flatMap_nil, List.append_nil, hq]
  apply lazy_head (fun c => c != '\n')
    (fun u => (oneOf isQuote u.2).flatMap fun s => (lazy (fun c => c != '\n') s).flatMap fun x =>
      (if (['>'] : Text).isPrefixOf x.2 then [x.2.drop 1] else []).map fun s => (u.1, s)) l.u _ _ []
  · intro x hx; simpa using (h.u x hx).2
  · intro a b hab hb
    obtain ⟨c, b', rfl⟩ := List.exists_cons_of_ne_nil hb
    have : isQuote c = false := by
      rw [← Bool.not_eq_true, isQuote_iff]
      exact (h.u c (by simp [hab])).1
    simp [oneOf, this]
  · simp only [oneOf, hq', if_true, List.flatMap_cons, List.flatMap_nil, List.append_nil, List.nil_append]
    apply lazy_head (fun c => c != '\n')
      (fun x => (if (['>'] : Text).isPrefixOf x.2 then [x.2.drop 1] else []).map fun s => (l.u, s)) l.b _ _ []
    · intro x hx; simpa using (h.b x hx).2
    · intro a b hab hb
      obtain ⟨c, b', rfl⟩ := List.exists_cons_of_ne_nil hb
      have h1 := (h.b c (by simp [hab])).1
      have h2 : ('>' == c) = false := by simpa using fun e => h1 e.symm
      simp [List.isPrefixOf, h2]
    · simp [List.isPrefixOf]

theorem findAll_plain (t : Text) (ht : Plain t) (s : Text) (hs : s.head? ≠ some 'a') (n : Nat) :
    findAll (t.length + n) (t ++ s) = findAll n s := by
  induction t with
  | nil => simp
  | cons c t ih =>
    have e : (c :: t).length + n = (t.length + n) + 1 := by simp only [List.length_cons]; omega
    have hp : ['<', 'a'].isPrefixOf (c :: (t ++ s)) = false := by
      have h1 := ht.1
      cases t with
      | nil =>
        cases s with
        | nil => simp [List.isPrefixOf]
        | cons d s =>
          have : ('a' == d) = false := by simpa using fun e : 'a' = d => hs (by simp [e.symm])
          simp [List.isPrefixOf, this]
      | cons d t =>
        rcases h1 with h1 | h1
        · have : ('<' == c) = false := by simpa using fun e : '<' = c => h1 e.symm
          simp [List.isPrefixOf, this]
        · have : ('a' == d) = false := by simpa using fun e : 'a' = d => h1 (by simp [e.symm])
          simp [List.isPrefixOf, this]
    rw [e]
    simp only [List.cons_append, findAll, anchors_nil_of_not hp, List.head?_nil]
    exact ih ht.2

theorem findAll_page (ls : List (Link × Text)) (h : ∀ x ∈ ls, x.1.Ok ∧ Plain x.2) (n : Nat)
    (hn : (ls.flatMap (fun x => x.1.text ++ x.2)).length < n) :
    findAll n (ls.flatMap (fun x => x.1.text ++ x.2)) = ls.map (fun x => x.1.u) := by
  induction ls generalizing n with
  | nil => cases n <;> simp [findAll]
  | cons x ls ih =>
    obtain ⟨hx, hp⟩ := h x (List.mem_cons_self ..)
    obtain ⟨n, rfl⟩ : ∃ m, n = m + 1 := ⟨n - 1, by omega⟩
    have hl := anchors_link x.1 hx (x.2 ++ ls.flatMap (fun x => x.1.text ++ x.2))
    obtain ⟨c, s, hs⟩ : ∃ c s, x.1.text = c :: s := ⟨_, _, rfl⟩
    simp only [List.flatMap_cons, List.append_assoc, List.length_append] at hn ⊢
    rw [hs] at hl hn ⊢
    simp only [List.cons_append] at hl ⊢
    rw [findAll]
    rw [hl]
    simp only [List.map_cons, List.cons.injEq, true_and]
    obtain ⟨m, rfl⟩ : ∃ m, n = x.2.length + m := ⟨n - x.2.length, by simp only [List.length_cons] at hn; omega⟩
    rw [findAll_plain x.2 hp _ (by
      cases ls with
      | nil => simp
      | cons y ls => simp [Link.text])]
    refine ih (fun y hy => h y (List.mem_cons_of_mem _ hy)) m ?_
    simp only [List.length_cons] at hn; omega

/-- **C137** The addresses found on a page are those of its links, each once, in their order. -/
theorem C137_links (t : Text) (ls : List (Link × Text)) (ht : Plain t) (h : ∀ x ∈ ls, x.1.Ok ∧ Plain x.2) :
    urls (page t ls) = ls.map (fun x => x.1.u) := by
  have e : (page t ls).length + 1 = t.length + ((ls.flatMap (fun x => x.1.text ++ x.2)).length + 1) := by
    simp only [page, List.length_append]; omega
  rw [urls, e, page, findAll_plain t ht _ (by
    cases ls with
    | nil => simp
    | cons y ls => simp [Link.text])]
  exact findAll_page ls h _ (by omega)

/-- **C137** A page without the beginning of a link has no address. -/
theorem C137_none (t : Text) (ht : Plain t) : urls t = [] := by
  have := C137_links t [] ht (by simp)
  simpa [page] using this

/-- a page like those of the archive -/
example : urls (("00:02 | 22 | <a href=\"http://tenhou.net/0/?log=2021010100gm-00a9-0000-12ab34cd\">x</a> | A(+10)<br>\n" ++
    "<a name='y'>z</a> <area href=\"q\"><a  href='u' target=\"_blank\">").toList)
    = ["http://tenhou.net/0/?log=2021010100gm-00a9-0000-12ab34cd".toList, "u".toList] := by decide +kernel

/-! ### C138: the id in a link -/

theorem splitEq_ne (s : Text) : ∃ w ws, splitEq s = w :: ws := by
  cases s with
  | nil => exact ⟨_, _, rfl⟩
  | cons c s =>
    by_cases h : c = '='
    · simp [splitEq, h]
    · cases e : splitEq s <;> simp [splitEq, h, e]

theorem splitEq_head (s : Text) : (splitEq s).head? = some (s.takeWhile (fun c => c != '=')) := by
  induction s with
  | nil => rfl
  | cons c s ih =>
    by_cases h : c = '='
    · simp [splitEq, h]
    · obtain ⟨w, ws, e⟩ := splitEq_ne s
      rw [e] at ih
      simp only [List.head?_cons, Option.some.injEq] at ih
      simp [splitEq, h, e, ih]

theorem splitEq_second (a s : Text) (ha : '=' ∉ a) : (splitEq (a ++ '=' :: s))[1]? = (splitEq s).head? := by
  induction a with
  | nil => simp [splitEq, List.head?_eq_getElem?]
  | cons c a ih =>
    simp only [List.mem_cons, not_or] at ha
    have := ih ha.2
    obtain ⟨w, ws, e⟩ := splitEq_ne (a ++ '=' :: s)
    rw [e] at this
    simp [splitEq, Ne.symm ha.1, e] at this ⊢
    exact this

/-- **C138** A link counts as a game exactly if it begins with the address of the log viewer, and the id is the text
up to the next `=`. -/
theorem C138_gid (url g : Text) :
    gid url = some g ↔ ∃ s, url = logPrefix ++ s ∧ g = s.takeWhile (fun c => c != '=') := by
  have key : ∀ s, (splitEq (logPrefix ++ s))[1]? = some (s.takeWhile (fun c => c != '=')) := by
    intro s
    have e : logPrefix = "http://tenhou.net/0/?log".toList ++ ['='] := by decide +kernel
    rw [e, List.append_assoc, List.singleton_append, splitEq_second _ _ (by decide +kernel), splitEq_head]
  unfold gid
  split
  · rename_i h
    obtain ⟨s, hs⟩ := List.isPrefixOf_iff_prefix.mp h
    subst hs
    rw [key]
    constructor
    · intro h; exact ⟨s, rfl, (Option.some.inj h).symm⟩
    · rintro ⟨s', h1, h2⟩; rw [List.append_cancel_left h1, h2]
  · rename_i h
    constructor
    · intro h'; simp at h'
    · rintro ⟨s, rfl, -⟩
      exact absurd (List.isPrefixOf_iff_prefix.mpr (List.prefix_append _ _)) h

/-- the value of the parameter `log` of the address: the text up to the next `&` -/
def Spec.logValue (s : Text) : Text := s.takeWhile (fun c => c != '&')

theorem takeWhile_all (p : Char → Bool) (s : Text) (h : ∀ c ∈ s, p c = true) : s.takeWhile p = s := by
  induction s with
  | nil => rfl
  | cons x s ih =>
    simp [h x (List.mem_cons_self ..), ih (fun c hc => h c (List.mem_cons_of_mem _ hc))]

theorem takeWhile_agree (p q : Char → Bool) (s : Text) (hd : ∀ c, p c = true ∨ q c = true)
    (h : s.takeWhile p = s.takeWhile q) : ∀ c ∈ s, p c = true ∧ q c = true := by
  induction s with
  | nil => simp
  | cons x s ih =>
    have hx := hd x
    cases hp : p x <;> cases hq : q x <;> simp [hp, hq] at h hx
    intro c hc
    rcases List.mem_cons.mp hc with rfl | hc
    · exact ⟨hp, hq⟩
    · exact ih h c hc

/-- **C138** With a further parameter behind it, the id is not the value of `log`. -/
theorem C138_value_violated :
    ∃ s, gid (logPrefix ++ s) ≠ some (Spec.logValue s) ∧ gid (logPrefix ++ s) = some "2021010100gm-00a9-0000-12ab34cd&tw".toList :=
  ⟨"2021010100gm-00a9-0000-12ab34cd&tw=0".toList, by decide +kernel, by decide +kernel⟩

/-- **C138** The id is the value of `log` exactly if the rest of the address has no `=` and no `&`; it is then the
whole rest. -/
theorem C138_value_partial (s : Text) :
    gid (logPrefix ++ s) = some (Spec.logValue s) ↔ '=' ∉ s ∧ '&' ∉ s := by
  rw [C138_gid]
  have e : (∃ s', logPrefix ++ s = logPrefix ++ s' ∧ Spec.logValue s = s'.takeWhile (fun c => c != '=')) ↔
      s.takeWhile (fun c => c != '=') = s.takeWhile (fun c => c != '&') := by
    constructor
    · rintro ⟨s', h1, h2⟩; rw [List.append_cancel_left h1]; rw [List.append_cancel_left h1] at h2; exact h2.symm
    · intro h; exact ⟨s, rfl, h.symm⟩
  rw [e]
  constructor
  · intro h
    have := takeWhile_agree _ _ s (fun c => by
      by_cases h : c = '='
      · right; subst h; decide
      · left; simpa using h) h
    exact ⟨fun h => by simpa using (this _ h).1, fun h => by simpa using (this _ h).2⟩
  · rintro ⟨h1, h2⟩
    rw [takeWhile_all _ s (fun c hc => by simpa using fun e : c = '=' => h1 (e ▸ hc)),
      takeWhile_all _ s (fun c hc => by simpa using fun e : c = '&' => h2 (e ▸ hc))]

/-- **C138** A link with nothing behind the id gives the id, and the URL asked for ends with it. -/
theorem C138_plain (s : Text) (h : '=' ∉ s) : gid (logPrefix ++ s) = some s := by
  rw [C138_gid]
  exact ⟨s, rfl, (takeWhile_all _ s (fun c hc => by simpa using fun e : c = '=' => h (e ▸ hc))).symm⟩

/-! ### C139: the files written -/

/-- the content of a file -/
def Files.get {β : Type} (out : Files β) (n : Text) : Option β := (out.find? (fun f => f.1 == n)).map Prod.snd

theorem get_writeFile {β : Type} (out : Files β) (n : Text) (c : β) (m : Text) :
    Files.get (writeFile out n c) m = if m = n then some c else Files.get out m := by
  unfold writeFile
  by_cases h : (out.any (fun f => f.1 == n)) = true
  · rw [if_pos h]
    induction out with
    | nil => simp at h
    | cons f out ih =>
      by_cases hf : f.1 = n
      · by_cases hm : m = n
        · subst hm; simp [Files.get, hf]
        · simp only [Files.get, List.map_cons, hf, if_true, List.find?_cons]
          have h1 : (n == m) = false := by simpa using Ne.symm hm
          simp only [h1, if_neg hm]
          clear ih h
          induction out with
          | nil => rfl
          | cons g out ih =>
            by_cases hg : g.1 = n
            · simpa [hg, h1] using ih
            · by_cases hgm : g.1 = m
              · simp [hgm, hm]
              · simpa [hg, hgm] using ih
      · have h' : (out.any (fun f => f.1 == n)) = true := by simpa [hf] using h
        have := ih h'
        by_cases hfm : f.1 = m
        · have : m ≠ n := fun e => hf (hfm.trans e)
          simp [Files.get, hfm, this]
        · simpa [Files.get, hf, hfm] using this
  · rw [if_neg h]
    simp only [List.any_eq_true, not_exists, not_and, Bool.not_eq_true, beq_eq_false_iff_ne] at h
    induction out with
    | nil =>
      by_cases hm : m = n
      · simp [Files.get, hm]
      · have : (n == m) = false := by simpa using Ne.symm hm
        simp [Files.get, hm, this]
    | cons f out ih =>
      have := ih (fun x hx => h x (List.mem_cons_of_mem _ hx))
      by_cases hfm : f.1 = m
      · have hm : m ≠ n := fun e => h f (List.mem_cons_self ..) (hfm.trans e)
        simp [Files.get, hfm, hm]
      · simpa [Files.get, hfm] using this

/-- all links on the pages read -/
def allUrls (dir : List (Entry Text)) : List Text :=
  (dir.filter (fun e => dotHtml.isSuffixOf e.name)).flatMap (fun e => urls e.content)

/-- the ids on the pages read -/
def ids (dir : List (Entry Text)) : List Text := (allUrls dir).filterMap gid

/-- every page can be read, and every id for which the server has an answer is a file name -/
structure Readable {β : Type} (server : Text → Nat × β) (dir : List (Entry Text)) : Prop where
  pages : ∀ e ∈ dir, dotHtml.isSuffixOf e.name = true → e.isDir = false
  names : ∀ g ∈ ids dir, (server (fetchUrl g)).1 = 200 → '/' ∉ g

/-- what the run over a list of links gives -/
theorem scrapeUrls_spec {β : Type} (server : Text → Nat × β) (us : List Text) (out : Files β)
    (h : ∀ g ∈ us.filterMap gid, (server (fetchUrl g)).1 = 200 → '/' ∉ g) :
    ∃ out', us.foldlM (scrapeUrl server) out = some out' ∧
      (∀ g ∈ us.filterMap gid, (server (fetchUrl g)).1 = 200 →
        Files.get out' (g ++ dotLog) = some (server (fetchUrl g)).2) ∧
      (∀ n, (∀ g ∈ us.filterMap gid, (server (fetchUrl g)).1 = 200 → n ≠ g ++ dotLog) →
        Files.get out' n = Files.get out n) := by
  induction us generalizing out with
  | nil => exact ⟨out, rfl, by simp, by simp⟩
  | cons u us ih =>
    simp only [List.foldlM_cons]
    unfold scrapeUrl
    cases hg : gid u with
    | none =>
      simp only [List.filterMap_cons, hg] at h ⊢
      exact ih out h
    | some g =>
      simp only [List.filterMap_cons, hg] at h ⊢
      have h' : ∀ g ∈ us.filterMap gid, (server (fetchUrl g)).1 = 200 → '/' ∉ g :=
        fun g hg => h g (List.mem_cons_of_mem _ hg)
      by_cases hs : (server (fetchUrl g)).1 = 200
      · have hsl := h g (List.mem_cons_self ..) hs
        simp only [hs, hsl, if_true, if_false, Option.bind_eq_bind, Option.bind_some]
        obtain ⟨out', e, h1, h2⟩ := ih (writeFile out (g ++ dotLog) (server (fetchUrl g)).2) h'
        refine ⟨out', e, ?_, ?_⟩
        · intro g' hg' hs'
          by_cases hin : g' ∈ us.filterMap gid
          · exact h1 g' hin hs'
          · rcases List.mem_cons.mp hg' with rfl | hx
            · rw [h2 _ (fun g'' hg'' _ e => hin (by rw [List.append_cancel_right e]; exact hg'')), get_writeFile, if_pos rfl]
            · exact absurd hx hin
        · intro n hn
          rw [h2 n (fun g' hg' => hn g' (List.mem_cons_of_mem _ hg')), get_writeFile,
            if_neg (hn g (List.mem_cons_self ..) hs)]
      · simp only [hs, if_false, Option.bind_eq_bind, Option.bind_some]
        obtain ⟨out', e, h1, h2⟩ := ih out h'
        refine ⟨out', e, ?_, ?_⟩
        · intro g' hg' hs'
          rcases List.mem_cons.mp hg' with rfl | hx
          · exact absurd hs' hs
          · exact h1 g' hx hs'
        · intro n hn
          exact h2 n (fun g' hg' => hn g' (List.mem_cons_of_mem _ hg'))

/-- the pages one after the other are the list of all their links -/
theorem scrape_eq {β : Type} (server : Text → Nat × β) (dir : List (Entry Text)) (out : Files β)
    (h : ∀ e ∈ dir, dotHtml.isSuffixOf e.name = true → e.isDir = false) :
    scrape server dir out = (allUrls dir).foldlM (scrapeUrl server) out := by
  induction dir generalizing out with
  | nil => rfl
  | cons e dir ih =>
    have hd : ∀ e ∈ dir, dotHtml.isSuffixOf e.name = true → e.isDir = false :=
      fun x hx => h x (List.mem_cons_of_mem _ hx)
    have e1 : ∀ (o : Files β), scrape server (e :: dir) o =
        ((if dotHtml.isSuffixOf e.name then
            if e.isDir then none else (urls e.content).foldlM (scrapeUrl server) o
          else some o) >>= fun o => scrape server dir o) := fun o => by
      simp only [scrape, List.foldlM_cons]
    rw [e1]
    by_cases hh : dotHtml.isSuffixOf e.name = true
    · have hf := h e (List.mem_cons_self ..) hh
      have e2 : allUrls (e :: dir) = urls e.content ++ allUrls dir := by simp [allUrls, hh]
      rw [e2, List.foldlM_append]
      simp only [hh, hf, if_true, Bool.false_eq_true, if_false]
      congr 1
      funext o
      exact ih o hd
    · have e2 : allUrls (e :: dir) = allUrls dir := by simp [allUrls, hh]
      rw [e2]
      simp only [hh, if_false, Bool.false_eq_true]
      exact ih out hd

/-- **C139** The run ends without an exception.  For each game on the pages for which the server answers with
status 200, the file named after the id has the body of the answer; all other files are as before. -/
theorem C139_files {β : Type} (server : Text → Nat × β) (dir : List (Entry Text)) (out : Files β)
    (h : Readable server dir) :
    ∃ out', scrape server dir out = some out' ∧
      (∀ g ∈ ids dir, (server (fetchUrl g)).1 = 200 →
        Files.get out' (g ++ dotLog) = some (server (fetchUrl g)).2) ∧
      (∀ n, (∀ g ∈ ids dir, (server (fetchUrl g)).1 = 200 → n ≠ g ++ dotLog) →
        Files.get out' n = Files.get out n) := by
  rw [scrape_eq server dir out h.pages]
  exact scrapeUrls_spec server (allUrls dir) out h.names

/-- **C139** The order in which `os.listdir` lists the pages makes no difference. -/
theorem C139_order {β : Type} (server : Text → Nat × β) (dir dir' : List (Entry Text)) (out : Files β)
    (h : Readable server dir) (hp : dir.Perm dir') :
    ∃ o o', scrape server dir out = some o ∧ scrape server dir' out = some o' ∧
      ∀ n, Files.get o n = Files.get o' n := by
  have hids : ∀ g, g ∈ ids dir ↔ g ∈ ids dir' := by
    intro g
    simp only [ids, allUrls, List.mem_filterMap, List.mem_flatMap, List.mem_filter]
    constructor <;> rintro ⟨u, ⟨e, ⟨he, h1⟩, h2⟩, h3⟩
    · exact ⟨u, ⟨e, ⟨hp.mem_iff.mp he, h1⟩, h2⟩, h3⟩
    · exact ⟨u, ⟨e, ⟨hp.mem_iff.mpr he, h1⟩, h2⟩, h3⟩
  have h' : Readable server dir' :=
    ⟨fun e he => h.pages e (hp.mem_iff.mpr he), fun g hg => h.names g ((hids g).mpr hg)⟩
  obtain ⟨o, e, h1, h2⟩ := C139_files server dir out h
  obtain ⟨o', e', h1', h2'⟩ := C139_files server dir' out h'
  refine ⟨o, o', e, e', fun n => ?_⟩
  by_cases hn : ∃ g ∈ ids dir, (server (fetchUrl g)).1 = 200 ∧ n = g ++ dotLog
  · obtain ⟨g, hg, hs, rfl⟩ := hn
    rw [h1 g hg hs, h1' g ((hids g).mp hg) hs]
  · have hn' : ∀ g ∈ ids dir, (server (fetchUrl g)).1 = 200 → n ≠ g ++ dotLog :=
      fun g hg hs e => hn ⟨g, hg, hs, e⟩
    rw [h2 n hn', h2' n (fun g hg => hn' g ((hids g).mpr hg))]

/-- the names of the files after writing -/
theorem names_writeFile {β : Type} (out : Files β) (n : Text) (c : β) :
    (writeFile out n c).map Prod.fst = if n ∈ out.map Prod.fst then out.map Prod.fst else out.map Prod.fst ++ [n] := by
  unfold writeFile
  by_cases h : (out.any (fun f => f.1 == n)) = true
  · have h' : n ∈ out.map Prod.fst := by simpa using h
    rw [if_pos h, if_pos h', List.map_map]
    apply List.map_congr_left
    intro f _
    by_cases hf : f.1 = n <;> simp [hf]
  · have h' : ¬ n ∈ out.map Prod.fst := by simpa using h
    rw [if_neg h, if_neg h']; simp

/-- **C139** A game that is linked more than once makes one file: if the names in the output directory are distinct
before, they are afterwards. -/
theorem C139_once {β : Type} (server : Text → Nat × β) (dir : List (Entry Text)) (out out' : Files β)
    (h : scrape server dir out = some out') (hout : (out.map Prod.fst).Nodup) : (out'.map Prod.fst).Nodup := by
  have step : ∀ u (o o' : Files β), scrapeUrl server o u = some o' → (o.map Prod.fst).Nodup → (o'.map Prod.fst).Nodup := by
    intro u o o' h hn
    unfold scrapeUrl at h
    split at h
    · cases h; exact hn
    · dsimp only at h
      split at h
      · split at h
        · cases h
        · cases h
          rw [names_writeFile]
          split
          · exact hn
          · rename_i hx
            exact List.nodup_append.mpr ⟨hn, by simp, by
              intro a ha b hb e
              simp only [List.mem_singleton] at hb
              exact hx (hb ▸ e ▸ ha)⟩
      · cases h; exact hn
  have steps : ∀ (us : List Text) (o o' : Files β), us.foldlM (scrapeUrl server) o = some o' → (o.map Prod.fst).Nodup →
      (o'.map Prod.fst).Nodup := by
    intro us
    induction us with
    | nil => intro o o' h hn; cases h; exact hn
    | cons u us ih =>
      intro o o' h hn
      simp only [List.foldlM_cons, Option.bind_eq_bind, Option.bind_eq_some_iff] at h
      obtain ⟨o1, h1, h2⟩ := h
      exact ih o1 o' h2 (step u o o1 h1 hn)
  unfold scrape at h
  induction dir generalizing out with
  | nil => cases h; exact hout
  | cons e dir ih =>
    simp only [List.foldlM_cons, Option.bind_eq_bind, Option.bind_eq_some_iff] at h
    obtain ⟨o1, h1, h2⟩ := h
    refine ih o1 h2 ?_
    split at h1
    · split at h1
      · cases h1
      · exact steps _ _ _ h1 hout
    · cases h1; exact hout

/-- two pages with the same game: one file -/
example : scrape (fun u => if u.length = 30 then (200, u.length) else (404, 0))
    [⟨"scc1.html".toList, false, "<a href=\"http://tenhou.net/0/?log=2021\">".toList⟩,
     ⟨"scc2.html".toList, false, "<a href=\"http://tenhou.net/0/?log=2021\"> <a href='http://tenhou.net/0/?log=x'>".toList⟩,
     ⟨"scc3".toList, false, "<a href=\"http://tenhou.net/0/?log=2022\">".toList⟩] []
    = some [("2021.log".toList, 30)] := by decide +kernel

/-! ### C140: the pages left by `filter_raw.sh` -/

theorem scc_stem (n : Text) (h : isScc n = true) (hz : dotGz.isSuffixOf n = true) : isScc (stem n) = true := by
  obtain ⟨a, ha⟩ := List.isSuffixOf_iff_suffix.mp hz
  obtain ⟨b, hb⟩ := List.isPrefixOf_iff_prefix.mp h
  have e : stem n = a := by simp [stem, ← ha, dotGz]
  rw [e]
  match a, ha with
  | [], ha => rw [← hb] at ha; simp [dotGz] at ha
  | [_], ha => rw [← hb] at ha; simp [dotGz] at ha
  | [_, _], ha => rw [← hb] at ha; simp [dotGz] at ha
  | x :: y :: z :: a, ha =>
    rw [← hb] at ha
    simp [dotGz] at ha
    simp [isScc, List.isPrefixOf, ha.1, ha.2.1, ha.2.2.1]

theorem stem_inj (n m : Text) (hn : dotGz.isSuffixOf n = true) (hm : dotGz.isSuffixOf m = true)
    (h : stem n = stem m) : n = m := by
  obtain ⟨a, ha⟩ := List.isSuffixOf_iff_suffix.mp hn
  obtain ⟨b, hb⟩ := List.isSuffixOf_iff_suffix.mp hm
  have e1 : stem n = a := by simp [stem, ← ha, dotGz]
  have e2 : stem m = b := by simp [stem, ← hb, dotGz]
  rw [← ha, ← hb, ← e1, ← e2, h]

theorem stem_ne (n : Text) (hn : dotGz.isSuffixOf n = true) : stem n ≠ n := by
  obtain ⟨a, ha⟩ := List.isSuffixOf_iff_suffix.mp hn
  have e1 : stem n = a := by simp [stem, ← ha, dotGz]
  intro h
  have := congrArg List.length (e1.symm.trans h)
  rw [← ha] at this
  simp [dotGz] at this

theorem mem_gunzip {α : Type} (unzip : α → Option α) (d : List (Entry α)) (n : Text) (e : Entry α)
    (h : e ∈ gunzip unzip d n) :
    e ∈ d ∨ ∃ e0 ∈ d, e0.name = n ∧ e0.isDir = false ∧ unzip e0.content = some e.content ∧ e.name = stem n ∧
      e.isDir = false := by
  unfold gunzip at h
  split at h
  · exact .inl h
  · obtain ⟨e0, he0, rfl⟩ := List.mem_map.mp h
    split
    · rename_i hc
      split
      · rename_i c hu
        exact .inr ⟨e0, he0, hc.1, hc.2, hu, rfl, hc.2⟩
      · exact .inl he0
    · exact .inl he0

theorem gunzip_other {α : Type} (unzip : α → Option α) (d : List (Entry α)) (n : Text) (e : Entry α) (he : e ∈ d)
    (hn : e.name ≠ n ∨ e.isDir = true) : e ∈ gunzip unzip d n := by
  unfold gunzip
  split
  · exact he
  · refine List.mem_map.mpr ⟨e, he, ?_⟩
    rw [if_neg]
    rintro ⟨h1, h2⟩
    rcases hn with hn | hn
    · exact hn h1
    · rw [h2] at hn; cases hn

theorem gunzip_free {α : Type} (unzip : α → Option α) (d : List (Entry α)) (n m : Text)
    (hm : ∀ e ∈ d, e.name ≠ m) (hs : stem n ≠ m) : ∀ e ∈ gunzip unzip d n, e.name ≠ m := by
  intro e he
  rcases mem_gunzip unzip d n e he with h | ⟨_, _, _, _, _, h, _⟩
  · exact hm e h
  · rw [h]; exact hs

theorem gunzips_other {α : Type} (unzip : α → Option α) (ns : List Text) (d : List (Entry α)) (e : Entry α)
    (he : e ∈ d) (hn : e.name ∉ ns ∨ e.isDir = true) : e ∈ ns.foldl (gunzip unzip) d := by
  induction ns generalizing d with
  | nil => exact he
  | cons n ns ih =>
    refine ih (gunzip unzip d n) (gunzip_other unzip d n e he ?_) ?_
    · rcases hn with hn | hn
      · exact .inl (fun h => hn (h ▸ List.mem_cons_self ..))
      · exact .inr hn
    · rcases hn with hn | hn
      · exact .inl (fun h => hn (List.mem_cons_of_mem _ h))
      · exact .inr hn

/-- a file whose name is in the list is unzipped, if there is no file with the new name -/
theorem gunzips_mem {α : Type} (unzip : α → Option α) (ns : List Text) (d : List (Entry α)) (e : Entry α) (c : α)
    (hns : ns.Nodup) (hgz : ∀ n ∈ ns, dotGz.isSuffixOf n = true)
    (he : e ∈ d) (hdir : e.isDir = false) (hin : e.name ∈ ns) (hu : unzip e.content = some c)
    (hfree : ∀ x ∈ d, x.name ≠ stem e.name) (hnot : stem e.name ∉ ns) :
    ({ e with name := stem e.name, content := c } : Entry α) ∈ ns.foldl (gunzip unzip) d := by
  induction ns generalizing d with
  | nil => simp at hin
  | cons n ns ih =>
    simp only [List.foldl_cons]
    by_cases hn : e.name = n
    · refine gunzips_other unzip ns _ _ ?_ (.inl fun h => hnot (List.mem_cons_of_mem _ h))
      unfold gunzip
      have hf : d.any (fun x => x.name == stem n) = false := by
        simp only [List.any_eq_false, beq_iff_eq]
        intro x hx; rw [← hn]; exact hfree x hx
      rw [hf]
      simp only [Bool.false_eq_true, if_false]
      refine List.mem_map.mpr ⟨e, he, ?_⟩
      simp only [hn, hdir, and_self, if_true, hu]
    · have hin' : e.name ∈ ns := by
        rcases List.mem_cons.mp hin with h | h
        · exact absurd h hn
        · exact h
      refine ih (gunzip unzip d n) (List.nodup_cons.mp hns).2 (fun m hm => hgz m (List.mem_cons_of_mem _ hm))
        (gunzip_other unzip d n e he (.inl hn)) hin' ?_ (fun h => hnot (List.mem_cons_of_mem _ h))
      refine gunzip_free unzip d n _ hfree ?_
      intro h
      exact hn (stem_inj _ _ (hgz _ (List.mem_cons_self ..)) (hgz _ hin) h).symm

/-- what holds for all entries holds after unzipping, if unzipping a file keeps it -/
theorem gunzips_all {α : Type} (unzip : α → Option α) (P : Entry α → Prop) (ns : List Text) (d : List (Entry α))
    (h : ∀ e ∈ d, P e)
    (hstep : ∀ n ∈ ns, ∀ e e' : Entry α, P e → e.name = n → e.isDir = false → e'.name = stem n → e'.isDir = false → P e') :
    ∀ e ∈ ns.foldl (gunzip unzip) d, P e := by
  induction ns generalizing d with
  | nil => exact h
  | cons n ns ih =>
    refine ih (gunzip unzip d n) ?_ (fun m hm => hstep m (List.mem_cons_of_mem _ hm))
    intro e he
    rcases mem_gunzip unzip d n e he with h1 | ⟨e0, h0, h1, h4, _, h2, h3⟩
    · exact h e h1
    · exact hstep n (List.mem_cons_self ..) e0 e (h e0 h0) h1 h4 h2 h3

theorem mem_gzNames {α : Type} (d : List (Entry α)) (n : Text) :
    n ∈ gzNames d ↔ ∃ e ∈ d, e.name = n ∧ e.hidden = false ∧ dotGz.isSuffixOf n = true := by
  simp only [gzNames, List.mem_map, List.mem_filter, Bool.and_eq_true, Bool.not_eq_true']
  constructor
  · rintro ⟨e, ⟨h1, h2, h3⟩, rfl⟩; exact ⟨e, h1, rfl, h2, h3⟩
  · rintro ⟨e, h1, rfl, h2, h3⟩; exact ⟨e, ⟨h1, h2, h3⟩, rfl⟩

theorem visible_scc (n : Text) (h : isScc n = true) : (n.head? == some '.') = false := by
  obtain ⟨b, rfl⟩ := List.isPrefixOf_iff_prefix.mp h
  rfl

/-- **C140** Files and directories that the patterns do not reach, and files `scc…` that are not packed, are kept. -/
theorem C140_kept {α : Type} (unzip : α → Option α) (d : List (Entry α)) (e : Entry α) (he : e ∈ d)
    (h : e.hidden = true ∨ e.isDir = true ∨ (isScc e.name = true ∧ dotGz.isSuffixOf e.name = false)) :
    e ∈ filterRaw unzip d := by
  have hk : e ∈ deleteOthers d := by
    refine List.mem_filter.mpr ⟨he, ?_⟩
    rcases h with h | h | h <;> simp [h]
  refine gunzips_other unzip _ _ e hk ?_
  rcases h with h | h | h
  · left
    intro hx
    obtain ⟨e', he', h1, h2, _⟩ := (mem_gzNames _ _).mp hx
    rw [Entry.hidden, h1, ← Entry.hidden, h] at h2
    cases h2
  · exact .inr h
  · left
    intro hx
    obtain ⟨_, _, _, _, h3⟩ := (mem_gzNames _ _).mp hx
    rw [h.2] at h3; cases h3

/-- **C140** Every packed file `scc….gz` is there under its name without `.gz`, with the unpacked content, unless it
is broken or the name is taken. -/
theorem C140_unpacked {α : Type} (unzip : α → Option α) (d : List (Entry α)) (e : Entry α) (c : α) (he : e ∈ d)
    (hn : (d.map Entry.name).Nodup) (hdir : e.isDir = false) (hs : isScc e.name = true)
    (hz : dotGz.isSuffixOf e.name = true) (hu : unzip e.content = some c) (hfree : ∀ x ∈ d, x.name ≠ stem e.name) :
    ({ e with name := stem e.name, content := c } : Entry α) ∈ filterRaw unzip d := by
  have hk : e ∈ deleteOthers d := List.mem_filter.mpr ⟨he, by simp [hs]⟩
  have hfree' : ∀ x ∈ deleteOthers d, x.name ≠ stem e.name := fun x hx => hfree x (List.mem_filter.mp hx).1
  refine gunzips_mem unzip (gzNames (deleteOthers d)) (deleteOthers d) e c ?_ ?_ hk hdir ?_ hu hfree' ?_
  · refine List.Nodup.sublist ?_ hn
    exact (((List.filter_sublist ..).trans (List.filter_sublist ..)).map Entry.name)
  · intro n hx; obtain ⟨_, _, _, _, h⟩ := (mem_gzNames _ _).mp hx; exact h
  · exact (mem_gzNames _ _).mpr ⟨e, hk, rfl, visible_scc _ hs, hz⟩
  · intro hx
    obtain ⟨x, hx, h, _⟩ := (mem_gzNames _ _).mp hx
    exact hfree' x hx h

/-- **C140** Nothing else is left: every entry afterwards is hidden, a directory or begins with `scc`. -/
theorem C140_only {α : Type} (unzip : α → Option α) (d : List (Entry α)) :
    ∀ e ∈ filterRaw unzip d, e.hidden = true ∨ isScc e.name = true ∨ e.isDir = true := by
  refine gunzips_all unzip (fun e => e.hidden = true ∨ isScc e.name = true ∨ e.isDir = true) _ _ ?_ ?_
  · intro e he
    have := (List.mem_filter.mp he).2
    simp only [Bool.or_eq_true] at this
    rcases this with (h | h) | h
    · exact .inl h
    · exact .inr (.inl h)
    · exact .inr (.inr h)
  · intro n hx e e' hP h1 h2 h3 _
    obtain ⟨x, _, hxn, hv, hz⟩ := (mem_gzNames _ _).mp hx
    rcases hP with h | h | h
    · rw [Entry.hidden, hxn, ← h1, ← Entry.hidden, h] at hv; cases hv
    · right; left; rw [h3]; exact scc_stem n (h1 ▸ h) hz
    · rw [h2] at h; cases h

theorem stem_visible (n : Text) (hz : dotGz.isSuffixOf n = true) (h : (n.head? == some '.') = false) :
    ((stem n).head? == some '.') = false := by
  obtain ⟨a, ha⟩ := List.isSuffixOf_iff_suffix.mp hz
  have e : stem n = a := by simp [stem, ← ha, dotGz]
  rw [e]
  cases a with
  | nil => rfl
  | cons c a => rw [← ha] at h; simpa using h

/-- the hidden entries afterwards were there before -/
theorem hidden_mem {α : Type} (unzip : α → Option α) (d : List (Entry α)) :
    ∀ e ∈ filterRaw unzip d, e.hidden = true → e ∈ d := by
  refine gunzips_all unzip (fun e => e.hidden = true → e ∈ d) _ _ (fun e he _ => (List.mem_filter.mp he).1) ?_
  intro n hx e e' _ _ _ h3 _ hh
  obtain ⟨x, _, hxn, hv, hz⟩ := (mem_gzNames _ _).mp hx
  rw [Entry.hidden, hxn] at hv
  rw [Entry.hidden, h3, stem_visible n hz hv] at hh
  cases hh

/-- **C140** The scraper also reads hidden pages, which `filter_raw.sh` does not delete. -/
theorem C140_pages_violated :
    ∃ d : List (Entry Nat), ∃ e ∈ filterRaw some d, dotHtml.isSuffixOf e.name = true ∧ e.isDir = false ∧
      isScc e.name = false :=
  ⟨[⟨".x.html".toList, false, 0⟩], ⟨".x.html".toList, false, 0⟩, by decide +kernel, by decide +kernel, rfl,
    by decide +kernel⟩

/-- **C140** All pages that the scraper reads begin with `scc` exactly if there was no hidden page at first. -/
theorem C140_pages_partial {α : Type} (unzip : α → Option α) (d : List (Entry α)) :
    (∀ e ∈ filterRaw unzip d, dotHtml.isSuffixOf e.name = true → e.isDir = false → isScc e.name = true) ↔
      ∀ e ∈ d, e.hidden = true → dotHtml.isSuffixOf e.name = true → e.isDir = true := by
  constructor
  · intro h e he hh hs
    cases hd : e.isDir with
    | true => rfl
    | false =>
      have := visible_scc _ (h e (C140_kept unzip d e he (.inl hh)) hs hd)
      rw [← Entry.hidden, hh] at this; cases this
  · intro h e he hs hd
    rcases C140_only unzip d e he with h1 | h1 | h1
    · rw [h e (hidden_mem unzip d e he h1) h1 hs] at hd; cases hd
    · exact h1
    · rw [hd] at h1; cases h1

/-- an archive: two packed pages, one of another kind, a broken file and a directory -/
example : filterRaw (fun n => if n < 10 then some (n + 100) else none)
    [⟨"scb1.html.gz".toList, false, 1⟩, ⟨"scc1.html.gz".toList, false, 2⟩, ⟨"scc2.html.gz".toList, false, 20⟩,
     ⟨"old".toList, true, 0⟩, ⟨"scc3.html".toList, false, 3⟩, ⟨".notes".toList, false, 4⟩]
    = [⟨"scc1.html".toList, false, 102⟩, ⟨"scc2.html.gz".toList, false, 20⟩,
     ⟨"old".toList, true, 0⟩, ⟨"scc3.html".toList, false, 3⟩, ⟨".notes".toList, false, 4⟩] := by decide +kernel

/-! ### C139 with the loader -/

/-- **C139** The data loader, started on the files of a run into an empty directory, has exactly the downloaded
games in its list, each once. -/
theorem C139_loader {β : Type} (server : Text → Nat × β) (dir : List (Entry Text)) (h : Readable server dir)
    (batch_size : Nat) :
    ∃ out, scrape server dir [] = some out ∧
      (Loader.init (out.map Prod.fst) batch_size).file_list.Nodup ∧
      ∀ n, n ∈ (Loader.init (out.map Prod.fst) batch_size).file_list ↔
        ∃ g ∈ ids dir, (server (fetchUrl g)).1 = 200 ∧ n = g ++ dotLog := by
  obtain ⟨out, e, h1, h2⟩ := C139_files server dir [] h
  refine ⟨out, e, C139_once server dir [] out e (by simp), fun n => ?_⟩
  have hget : ∀ (o : Files β), n ∈ o.map Prod.fst ↔ Files.get o n ≠ none := by
    intro o
    simp [Files.get]
  simp only [Loader.init]
  rw [hget]
  constructor
  · intro hne
    apply Classical.byContradiction
    intro hno
    refine hne ?_
    rw [h2 n (fun g hg hs e => hno ⟨g, hg, hs, e⟩)]
    rfl
  · rintro ⟨g, hg, hs, rfl⟩
    rw [h1 g hg hs]; simp

end MJ.Data
