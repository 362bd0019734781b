.lake/
**/.lake/
*.olean
__pycache__/
