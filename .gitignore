seeded/__pycache__/
