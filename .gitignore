__pycache__/
.lake/
build/
