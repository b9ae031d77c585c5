# Test of the model against the files of the repository

The theorems are about the Lean model. Whether the model is the program can only be tested here: the code must not be
built on this box. These scripts take the place of that comparison.

- `apexparse.py` parses Apex, SOQL and SOSL and builds trees of the shape of tree-sitter-sfapex. It stands in for the
  parser, which is not on the box.
- `validate.py` parses the inputs in `tests/static`, `tests/prettier80` and `tests/comments`, runs the model
  (`formatTree`) on the trees, and compares with the expected outputs. It counts on how many of these trees the
  hypotheses of the main theorems hold. It then formats the expected outputs once more.
- `RESULT.txt` is its output at the time of the commit.

Run `lake build` in `../lean`, then `python3 validate.py`. Nothing here is part of a proof.
