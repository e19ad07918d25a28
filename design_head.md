# DESIGN — formal model of opensource COBOL (libcob and parts of cobc) in Lean 4

This file is generated by `gen_design.py`; the hand-written parts are `design_head.md`,
`design_methods.json` and `notes.json`.

## 1. What is modelled and how

The runtime `libcob` and selected passes of the compiler `cobc` are modelled function by
function as total, computable Lean functions.

* **Bytes and storage.**  A data item is a descriptor (`Attr`: digits, scale, sign flags,
  byte order) together with its bytes (`List Nat`, every byte `< 256` where it matters, which
  is part of the well-formedness predicates `WFDisplay`, `WFPacked`, `WFBinary`, `WFItem`).
  Where aliasing is observable (bit routines, ALLOCATE/FREE, CANCEL tree, EXTERNAL) the state
  is an explicit store.
* **Numbers.**  GMP values are `Int`; C `int`/`long long` arithmetic is either shown not to
  overflow under the stated hypotheses, or modelled with explicit wrap (`wrap32`, `toCInt`,
  `% 2^n`), and the findings show what happens on overflow.
* **Loops** are structural recursions over the lists the C code walks, or recursion on an
  explicit fuel that is proved never to run out (the theorems have no fuel in their statement).
* **Undefined behaviour is not totalised away.**  Use of a closed or null stream, reads outside
  an item, use after free, and non-termination are separate constructors of the result type
  (or `none`), and theorems state that they do not occur, or findings that they do.
* **Histories.**  Properties of stateful parts (files, caches, EXTERNAL, ALLOCATE, handlers,
  call table, sort) quantify over arbitrary finite lists of statements from the initial state;
  they are proved by an invariant or a simulation with a small specification automaton.
* **Build configuration:** default `configure` of the pinned commit: no `I18N_UTF8` (SJIS
  build), `WITH_VARSEQ=0`, no EXTFH, 64-bit little-endian Linux, C locale.

Layout: `lean/Verif/<Area>/X.lean` is the code model (each definition cites file and lines and
says what is simplified), `XSpec.lean` the independent specification (or a *Specification*
section at the head of `XProps.lean` for small ones), `XLemmas.lean` helper lemmas,
`XProps.lean` property theorems `Cnn_…` with non-vacuity `example`s beside them.

## 2. Trusted base

1. **Lean 4.33.0's kernel.**  No axioms are added; every theorem depends at most on `propext`,
   `Classical.choice` and `Quot.sound` (checked with `#print axioms` over all `Cnn_…` theorems by
   `vcheck`).  No compiled evaluation: concrete witnesses are checked with `decide +kernel`,
   `rfl` or `norm_num`, all replayed by the kernel.
2. **The translation from C to Lean**, made by hand; every definition cites the lines it models.
   The model is executable, so it can be compared with the C code by reading it side by side;
   it has not been compared by running, because the project cannot be built in the sandbox.
3. **Assumptions about what is outside**: GMP computes exactly; the C library functions
   (`memcpy`, `memcmp`, `memset`, `strtol`, `qsort`-free code, `toupper` in the C locale, stdio and
   POSIX file calls without I/O errors) behave as documented; `malloc` returns areas not in use;
   GCC's evaluation order where the code depends on it (C42, noted there).
4. **Mathlib** lemmas, which are checked by the same kernel.

Not modelled at all: `screenio.c`, the indexed file back-ends (vbisam/BDB), EXTFH, signal
handling, locale-dependent formatting, the scanner and parser of `cobc` and most of its
code generation (the modelled compiler passes are PICTURE analysis, storage layout, COMPUTE
decimal registers, and the selection of specialised comparison / arithmetic / MOVE routines).

## 3. Properties and findings

A property is stated as the user would state it.  Where the code does not satisfy the plain
statement, the theorem carries the exact hypothesis under which it does, and a *finding* theorem
(`Cnn_finding_…` or a name given in the remarks) proves with a concrete execution of the model
that the hypothesis cannot be dropped.  No property is claimed beyond its theorems; a theorem
covering only a part of its property would carry the suffix `_partial`.

## 4. Testing the theorems

`seeded/LOG.jsonl` records attempts to break the theorems: one mutation of a model definition
at a time (hand-written realistic bugs, and systematic ones: changed boundaries, dropped cases,
swapped branches, dropped updates), a rebuild, and which theorems stopped proving.  Surviving
mutations were triaged: either the mutation is equivalent (the changed line cannot be reached or
has no observable effect, with the reason recorded) or the theorem was tightened.
