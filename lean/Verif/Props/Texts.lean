import Verif.Props.Heap

/-!
# C67: texts are read by their characters

`tam`, indexing and `txt_contem` on texts.  What a character is, is a parameter of the VM: the crate
unicode-segmentation cuts a text into pieces (vm.rs:273, embutidos.rs:77).
-/

namespace Amanda

variable {F : Type} [FloatOps F]

/-- What the documentation of unicode-segmentation promises: the pieces of a text, one after another, are the
text, and none is empty. -/
structure CutsTexts (cfg : Cfg) : Prop where
  whole : ∀ s, (cfg.graphemes s).flatMap String.toList = s.toList
  nonempty : ∀ s, ∀ g ∈ cfg.graphemes s, g.toList ≠ []

theorem pieces_le {gs : List String} (h : ∀ g ∈ gs, g.toList ≠ []) : gs.length ≤ (gs.flatMap String.toList).length := by
  induction gs with
  | nil => simp
  | cons g gs ih =>
      have h1 := List.length_pos_iff.mpr (h g (by simp))
      have h2 := ih fun x hx => h x (by simp [hx])
      simp only [List.length_cons, List.flatMap_cons, List.length_append]
      omega

/-- The size that `tam` gives for a text. -/
theorem text_size {cfg : Cfg} (hc : CutsTexts cfg) {s : String} (hs : s.toList.length < 2 ^ 63) (w : World F) :
    callNative cfg "embutidos" "tam" [.str s] w = .ok (.int (cfg.graphemes s).length, w) := by
  have h := pieces_le (hc.nonempty s)
  rw [hc.whole s] at h
  have e : asI64 (cfg.graphemes s).length = (cfg.graphemes s).length := by
    rw [asI64_bmod, size_is_length (by omega)]
  simp [callNative, nTam, nArg, Res.at, e]

section
variable {prog : Program F} {vm : VM F} {f : AmaFunc} {fs : List AmaFunc} {c : ModRef}
  {g : List ((ModRef × String) × Val F)} {w : World F} {base : List (Val F)}

/-- **C67**, reading.  There are as many characters in a text as `tam` says; indexing gives the character at an
index of the text, and stops with an index error and no effect on any other; the characters read from the first
index to the last, one after another, are the text, and none of them is empty.  The bound is that of Rust
(`isize::MAX` bytes). -/
theorem text_read {cfg : Cfg} (hc : CutsTexts cfg) (m : Module F) {s : String} (hs : s.toList.length < 2 ^ 63) :
    ∃ chars : List String,
      callNative cfg "embutidos" "tam" [.str s] w = .ok (.int chars.length, w) ∧
      chars.flatMap String.toList = s.toList ∧ (∀ x ∈ chars, x ≠ "") ∧
      ∀ i : Int, At vm (f :: fs) (base ++ [.str s, .int i]) c g w →
        (∀ x, 0 ≤ i → chars[i.toNat]? = some x → ∃ vm',
          exec cfg prog m vm .opIndexGet [] = .ok vm' ∧ At vm' (f.next :: fs) (base ++ [.str x]) c g w) ∧
        (i < 0 → RaisesAt prog (f :: fs) c g w (exec cfg prog m vm .opIndexGet []) msgNegStrIndex) ∧
        ((chars.length : Int) ≤ i →
          RaisesAt prog (f :: fs) c g w (exec cfg prog m vm .opIndexGet []) (msgStrIndex chars.length i)) := by
  refine ⟨cfg.graphemes s, text_size hc hs w, hc.whole s, fun x hx e => hc.nonempty s x hx (by rw [e]; rfl), fun i h => ?_⟩
  obtain ⟨vm1, e1, h1⟩ := At.pop (l := base ++ [.str s]) (by simpa using h)
  obtain ⟨vm2, e2, h2⟩ := At.pop h1
  simp only [exec, execIndexGet, e1, except_bind_ok, Val.takeInt, Res.lift, e2, h2.world]
  refine ⟨?_, ?_, ?_⟩
  · intro x h0 hx
    have hg : indexGet cfg w.heap (.str s) i = .ok (.str x) := by
      simp only [indexGet]
      rw [if_neg (by omega), hx]
    obtain ⟨vm3, e3, h3⟩ := h2.push (.str x)
    obtain ⟨vm4, e4, h4⟩ := h3.advance
    exact ⟨vm4, by simp [hg, e3, e4], h4⟩
  · intro h0
    have hg : indexGet cfg w.heap (.str s) i = .error (.err msgNegStrIndex) := by
      simp [indexGet, h0]
    exact ⟨vm2, _, by simp [hg], h2⟩
  · intro h0
    have hg : indexGet cfg w.heap (.str s) i = .error (.err (msgStrIndex (cfg.graphemes s).length i)) := by
      simp only [indexGet]
      rw [if_neg (by omega), List.getElem?_eq_none (by omega)]
    exact ⟨vm2, _, by simp [hg], h2⟩
end

theorem containsSub_iff (n : List Char) : ∀ h, containsSub n h = true ↔ ∃ a b, h = a ++ n ++ b
  | [] => by
      simp only [containsSub, List.isEmpty_iff]
      constructor
      · rintro rfl; exact ⟨[], [], rfl⟩
      · rintro ⟨a, b, e⟩
        have := congrArg List.length e
        simp only [List.length_nil, List.length_append] at this
        exact List.length_eq_zero_iff.mp (by omega)
  | c :: cs => by
      simp only [containsSub, Bool.or_eq_true, List.isPrefixOf_iff_prefix, containsSub_iff n cs]
      constructor
      · rintro (⟨b, e⟩ | ⟨a, b, e⟩)
        · exact ⟨[], b, by simpa using e.symm⟩
        · exact ⟨c :: a, b, by simp [e]⟩
      · rintro ⟨a, b, e⟩
        cases a with
        | nil => exact .inl ⟨b, by simpa using e.symm⟩
        | cons x a =>
            simp only [List.cons_append, List.cons.injEq] at e
            exact .inr ⟨a, b, e.2⟩

/-- **C67**, searching.  `txt_contem(h, n)` says whether `h` is some text, then `n`, then some text; it changes
nothing. -/
theorem text_contains (cfg : Cfg) (h n : String) (w : World F) :
    ∃ r, callNative cfg "embutidos" "txt_contem" [.str h, .str n] w = .ok (.bool r, w) ∧
      (r = true ↔ ∃ a b, h = a ++ n ++ b) := by
  refine ⟨containsSub n.toList h.toList, by simp [callNative, nTxtContem, nArg, Res.at], ?_⟩
  rw [containsSub_iff]
  constructor
  · rintro ⟨a, b, e⟩
    exact ⟨String.ofList a, String.ofList b, String.toList_injective (by simpa using e)⟩
  · rintro ⟨a, b, rfl⟩
    exact ⟨a.toList, b.toList, by simp⟩

/-! ## Examples -/

/-- Texts cut at every code point. -/
def codePoints : Cfg := { debug := false, graphemes := fun s => s.toList.map fun c => String.ofList [c] }

/-- The hypothesis of `text_read` about the cuts can be met. -/
theorem codePoints_cuts : CutsTexts codePoints where
  whole s := by
    have : ∀ l : List Char, (l.map fun c => String.ofList [c]).flatMap String.toList = l := by
      intro l
      induction l with
      | nil => rfl
      | cons c l ih => rw [List.map_cons, List.flatMap_cons, ih]; simp
    exact this s.toList
  nonempty s x hx := by
    simp only [codePoints, List.mem_map] at hx
    obtain ⟨c, -, rfl⟩ := hx
    simp

/-- `olá` has three characters, the last of which is `á`. -/
example : (codePoints.graphemes "olá").length = 3 ∧ (codePoints.graphemes "olá")[2]? = some "á" ∧ "olá".toList.length < 2 ^ 63 := by
  decide

/-- `"olá"[2]` is read, and `"olá"[3]` is an index error. -/
example (prog : Program WholeFloat) (m : Module WholeFloat) :
    (∃ vm' x, exec codePoints prog m (sampleVM [.str "olá", .int 2]) .opIndexGet [] = .ok vm' ∧ x ≠ "" ∧ Live vm' [.str x]) ∧
    (∃ vm', exec codePoints prog m (sampleVM [.str "olá", .int 3]) .opIndexGet [] =
      .error (throwErr prog vm' "Erro de índice inválido. O tamanho da string é 3, mas o índice é 3")) := by
  have hs : "olá".toList.length < 2 ^ 63 := by decide
  constructor
  · obtain ⟨chars, e, -, hne, h⟩ := text_read (prog := prog) (base := []) codePoints_cuts m hs
    have e' := (text_size codePoints_cuts hs _).symm.trans e
    have hl : chars.length = 3 := by
      simp only [Except.ok.injEq, Prod.mk.injEq, Val.int.injEq, Int.natCast_inj, and_true] at e'
      exact e'.symm.trans (by decide)
    obtain ⟨vm', e1, h1⟩ := (h 2 (sampleVM_at _)).1 (chars[2]'(by omega)) (by omega) (by simp)
    exact ⟨vm', _, e1, hne _ (by simp), h1.live⟩
  · obtain ⟨chars, e, -, -, h⟩ := text_read (prog := prog) (base := []) codePoints_cuts m hs
    have e' := (text_size codePoints_cuts hs _).symm.trans e
    have hl : chars.length = 3 := by
      simp only [Except.ok.injEq, Prod.mk.injEq, Val.int.injEq, Int.natCast_inj, and_true] at e'
      exact e'.symm.trans (by decide)
    obtain ⟨vm', l, e1, -⟩ := (h 3 (sampleVM_at _)).2.2 (by omega)
    rw [hl] at e1
    exact ⟨vm', e1⟩

/-- `txt_contem("banana", "nan")` holds and `txt_contem("banana", "nab")` does not. -/
example : (∃ a b, "banana" = a ++ "nan" ++ b) ∧ containsSub "nab".toList "banana".toList = false :=
  ⟨⟨"ba", "a", by decide⟩, by decide⟩

end Amanda
